import Verif.Lemmas.Run
import Verif.Props.Time
import Verif.Props.Momentum
import Verif.Props.Grid
import Verif.Props.Stress
import Verif.Props.Mui
import Verif.Props.CamClayMui

set_option linter.unusedSectionVars false
set_option linter.unusedSimpArgs false
set_option linter.unusedVariables false

/-!
# C56 - C58: whole runs of the program
-/

namespace Verif.Props
open Verif Matrix
noncomputable section

/-- The files written by a run, however it ended (also when it was interrupted: `outOfFuel`). -/
def filesOf {d : ℕ} {W : Type*} : Result d W → List (Event W)
  | .refused s => s.out
  | .finished s => s.out
  | .failed s => s.out
  | .ub => []
  | .outOfFuel s => s.out

section loop
variable {d : ℕ} {W : Type*} {C : TimeConfig d} {ph : Physics d W} {gf : Fin d → ℝ}

lemma saveFrame_mem {s : LoopState d W} {ev : Event W} (h : ev ∈ (saveFrame C s).out) :
    ev ∈ s.out ∨ ∃ n, ev = .particles n s.time s.w ∨ ev = .grid n s.time s.w := by
  simp only [saveFrame] at h
  split_ifs at h
  · simp only [List.mem_append, List.mem_singleton] at h
    rcases h with (h | h) | h
    · exact .inl h
    · exact .inr ⟨_, .inl h⟩
    · exact .inr ⟨_, .inr h⟩
  · simp only [List.append_nil, List.mem_append, List.mem_singleton] at h
    rcases h with h | h
    · exact .inl h
    · exact .inr ⟨_, .inl h⟩
  · exact .inl h

lemma saveFrame_w (s : LoopState d W) : (saveFrame C s).w = s.w := by
  simp only [saveFrame]; split_ifs <;> rfl
lemma endOfFrame_w (s : LoopState d W) : (endOfFrame C s).w = s.w := by
  simp only [endOfFrame, saveFrame]; split_ifs <;> rfl

lemma endOfFrame_mem {s : LoopState d W} {ev : Event W} (h : ev ∈ (endOfFrame C s).out) :
    ev ∈ s.out ∨ ∃ n, ev = .particles n s.time s.w ∨ ev = .grid n s.time s.w := by
  simp only [endOfFrame] at h
  split_ifs at h
  · have := saveFrame_mem h
    exact this
  · exact .inl h

/-- A successful step of the run, taken in a reachable state. -/
def StepTaken (C : TimeConfig d) (ph : Physics d W) (gf : Fin d → ℝ) (s0 : LoopState d W) (k : ℕ)
    (s : LoopState d W) (dt : ℝ) (g : Fin d → ℝ) (w : W) : Prop :=
  Reach C ph gf s0 k s ∧ s.frame < C.endFrame ∧
    updateDt C gf s.frame s.time (ph.velocities s.w) s.gravity = some (dt, g) ∧
    ph.step s.w dt g s.time s.step = some (w, false)

/-- Every file is an earlier one, the timing file, or was written after a successful step. -/
lemma loop_files {s0 : LoopState d W} : ∀ (fuel : ℕ) (k : ℕ) (s : LoopState d W), Reach C ph gf s0 k s →
    ∀ ev ∈ filesOf (loop C ph gf fuel s), ev ∈ s.out ∨ (∃ n, ev = .timing n) ∨
      ∃ k s dt g w n, StepTaken C ph gf s0 k s dt g w ∧
        (ev = .particles n (s.time + dt) w ∨ ev = .grid n (s.time + dt) w) := by
  have hfin : ∀ (s : LoopState d W) ev, ev ∈ (finish C s).out → ev ∈ s.out ∨ ∃ k, ev = .timing k := by
    intro s ev h
    simp only [finish] at h
    split_ifs at h
    · rcases List.mem_append.mp h with h | h
      · exact .inl h
      · exact .inr ⟨_, List.mem_singleton.mp h⟩
    · exact .inl h
  intro fuel
  induction fuel with
  | zero =>
    intro k s hi ev hev
    unfold loop at hev
    split_ifs at hev
    · exact .inl hev
    · rcases hfin s ev hev with h | h
      · exact .inl h
      · exact .inr (.inl h)
  | succ fuel ih =>
    intro k s hi ev hev
    unfold loop at hev
    split_ifs at hev with hlt
    swap
    · rcases hfin s ev hev with h | h
      · exact .inl h
      · exact .inr (.inl h)
    rcases loopBody_cases (C := C) (ph := ph) (gf := gf) s with h | ⟨_, _, _, _, _, h⟩ |
      ⟨dt, g, w, hu, hmin, -, hg, hst, h⟩
    · simp only [h, filesOf, List.not_mem_nil] at hev
    · simp only [h, filesOf] at hev
      exact .inl hev
    have hG : StepTaken C ph gf s0 k s dt g w := ⟨hi, hlt, hu, hst⟩
    set s1 : LoopState d W := { s with w := w, gravity := g, time := s.time + dt, step := s.step + 1 } with hs1
    have h2 : ∀ ev ∈ (endOfFrame C s1).out, ev ∈ s.out ∨ (∃ n, ev = .timing n) ∨
      ∃ k s dt g w n, StepTaken C ph gf s0 k s dt g w ∧
        (ev = .particles n (s.time + dt) w ∨ ev = .grid n (s.time + dt) w) := by
      intro ev hev
      rcases endOfFrame_mem hev with h | ⟨n, h⟩
      · exact .inl h
      · exact .inr (.inr ⟨k, s, dt, g, w, n, hG, h⟩)
    have hw := endOfFrame_w (C := C) s1
    have ht := endOfFrame_time (C := C) s1
    simp only at h
    split_ifs at h
    · simp only [h, filesOf] at hev
      rcases hfin _ _ hev with h' | h'
      · rcases saveFrame_mem h' with h' | ⟨n, h'⟩
        · exact h2 _ h'
        · rw [hw, ht] at h'
          exact .inr (.inr ⟨k, s, dt, g, w, n, hG, h'⟩)
      · exact .inr (.inl h')
    · have hr := Reach.next hi hlt h
      simp only [h] at hev
      rcases ih _ _ hr ev hev with h' | h'
      · exact h2 _ h'
      · exact .inr h'

/-- Undefined behaviour occurs in a reachable state. -/
lemma loop_ub {s0 : LoopState d W} : ∀ (fuel k : ℕ) (s : LoopState d W), Reach C ph gf s0 k s →
    loop C ph gf fuel s = .ub →
      ∃ k s, Reach C ph gf s0 k s ∧ s.frame < C.endFrame ∧ (ph.velocities s.w = [] ∨ ∃ dt g',
        updateDt C gf s.frame s.time (ph.velocities s.w) s.gravity = some (dt, g') ∧
        ph.step s.w dt g' s.time s.step = none) := by
  intro fuel
  induction fuel with
  | zero =>
    intro k s hi h
    unfold loop at h
    split_ifs at h
  | succ fuel ih =>
    intro k s hi h
    unfold loop at h
    split_ifs at h with hlt
    cases hu : updateDt C gf s.frame s.time (ph.velocities s.w) s.gravity with
    | none =>
      refine ⟨_, _, hi, hlt, .inl ?_⟩
      by_contra hne
      have := C17_defined C gf s.gravity s.frame s.time _ hne
      rw [hu] at this
      cases this
    | some r =>
      obtain ⟨dt, g⟩ := r
      cases hst : ph.step s.w dt g s.time s.step with
      | none => exact ⟨_, _, hi, hlt, .inr ⟨dt, g, hu, hst⟩⟩
      | some r =>
        obtain ⟨w, b⟩ := r
        cases b
        swap
        · simp only [loopBody, hu, hst] at h; cases h
        cases hb : loopBody C ph gf s with
        | cont s' => rw [hb] at h; exact ih _ _ (.next hi hlt hb) h
        | brk s' => rw [hb] at h; cases h
        | fail s' => rw [hb] at h; cases h
        | ub =>
          simp only [loopBody, hu, hst] at hb
          split_ifs at hb

/-- A run that failed did so in a step from a state reached. -/
lemma loop_failed {s0 : LoopState d W} : ∀ (fuel k : ℕ) (s r : LoopState d W), Reach C ph gf s0 k s →
    loop C ph gf fuel s = .failed r →
      ∃ k s, Reach C ph gf s0 k s ∧ ∃ dt g w,
        updateDt C gf s.frame s.time (ph.velocities s.w) s.gravity = some (dt, g) ∧
        ph.step s.w dt g s.time s.step = some (w, true) := by
  intro fuel
  induction fuel with
  | zero =>
    intro k s r hi h
    unfold loop at h
    split_ifs at h
  | succ fuel ih =>
    intro k s r hi h
    unfold loop at h
    split_ifs at h with hlt
    cases hu : updateDt C gf s.frame s.time (ph.velocities s.w) s.gravity with
    | none => simp only [loopBody, hu] at h; cases h
    | some q =>
      obtain ⟨dt, g⟩ := q
      cases hst : ph.step s.w dt g s.time s.step with
      | none => simp only [loopBody, hu, hst] at h; cases h
      | some q =>
        obtain ⟨w, b⟩ := q
        cases b
        swap
        · exact ⟨k, s, hi, dt, g, w, hu, hst⟩
        cases hb : loopBody C ph gf s with
        | cont s' => rw [hb] at h; exact ih _ _ _ (.next hi hlt hb) h
        | brk s' => rw [hb] at h; cases h
        | ub => rw [hb] at h; cases h
        | fail s' =>
          simp only [loopBody, hu, hst] at hb
          split_ifs at hb

/-- Invariants of the reachable states. -/
lemma reach_inv {s0 : LoopState d W} {Inv : W → ℝ → ℕ → (Fin d → ℝ) → Prop}
    (h0 : Inv s0.w s0.time s0.step s0.gravity)
    (hstep : ∀ k s dt g w, StepTaken C ph gf s0 k s dt g w → Inv s.w s.time s.step s.gravity →
      Inv w (s.time + dt) (s.step + 1) g) {k : ℕ} {s : LoopState d W} (hr : Reach C ph gf s0 k s) :
    Inv s.w s.time s.step s.gravity := by
  induction hr with
  | start => exact h0
  | @next k s s' hr hlt hb ih =>
    rcases loopBody_cases (C := C) (ph := ph) (gf := gf) s with h | ⟨_, _, _, _, _, h⟩ |
      ⟨dt, g, w, hu, hmin, -, hg, hst, h⟩
    · rw [h] at hb; cases hb
    · rw [h] at hb; cases hb
    have := hstep k s dt g w ⟨hr, hlt, hu, hst⟩ ih
    simp only at h
    rw [h] at hb
    split_ifs at hb
    injection hb with hb
    rw [← hb, endOfFrame_w, endOfFrame_time, endOfFrame_step, endOfFrame_gravity]
    exact this

/-- Two particle files are related by `Rel` (other pairs of files are not restricted). -/
def FilesRel (Rel : ℝ → W → ℝ → W → Prop) (a b : Event W) : Prop :=
  ∀ na ta wa nb tb wb, a = .particles na ta wa → b = .particles nb tb wb → Rel ta wa tb wb

/-- A preorder respected by all steps relates the particle files in the order of writing. -/
lemma loop_pairwise {s0 : LoopState d W} {Rel : ℝ → W → ℝ → W → Prop} (hrefl : ∀ t w, Rel t w t w)
    (htrans : ∀ t1 w1 t2 w2 t3 w3, Rel t1 w1 t2 w2 → Rel t2 w2 t3 w3 → Rel t1 w1 t3 w3)
    (hstep : ∀ k s dt g w, StepTaken C ph gf s0 k s dt g w → Rel s.time s.w (s.time + dt) w) :
    ∀ (fuel : ℕ) (k : ℕ) (s : LoopState d W), Reach C ph gf s0 k s → s.out.Pairwise (FilesRel Rel) →
      (∀ n t w, .particles n t w ∈ s.out → Rel t w s.time s.w) →
      (filesOf (loop C ph gf fuel s)).Pairwise (FilesRel Rel) := by
  have hfin : ∀ (s : LoopState d W), s.out.Pairwise (FilesRel Rel) → (finish C s).out.Pairwise (FilesRel Rel) := by
    intro s h
    simp only [finish]
    split_ifs
    · rw [List.pairwise_append]
      refine ⟨h, by simp, fun a _ b hb => ?_⟩
      rw [List.mem_singleton.mp hb]
      intro na ta wa nb tb wb _ h2
      cases h2
    · exact h
  have hsave : ∀ (s : LoopState d W), s.out.Pairwise (FilesRel Rel) →
      (∀ n t w, .particles n t w ∈ s.out → Rel t w s.time s.w) →
      (saveFrame C s).out.Pairwise (FilesRel Rel) ∧
      ∀ n t w, .particles n t w ∈ (saveFrame C s).out → Rel t w s.time s.w := by
    intro s h h'
    refine ⟨?_, fun n t w hm => ?_⟩
    · simp only [saveFrame]
      split_ifs
      · simp only [List.append_assoc]
        rw [List.pairwise_append]
        refine ⟨h, ?_, fun a ha b hb => ?_⟩
        · simp only [List.singleton_append, List.pairwise_cons, List.mem_singleton, forall_eq,
            List.not_mem_nil, false_imp_iff, implies_true, List.Pairwise.nil, and_true]
          intro na ta wa nb tb wb _ h2
          cases h2
        · intro na ta wa nb tb wb h1 h2
          subst h1 h2
          simp only [List.singleton_append, List.mem_cons, Event.particles.injEq, List.not_mem_nil, or_false,
            reduceCtorEq] at hb
          obtain ⟨rfl, rfl, rfl⟩ := hb
          exact h' _ _ _ ha
      · simp only [List.append_nil]
        rw [List.pairwise_append]
        refine ⟨h, by simp, fun a ha b hb => ?_⟩
        intro na ta wa nb tb wb h1 h2
        subst h1 h2
        simp only [List.mem_cons, Event.particles.injEq, List.not_mem_nil, or_false] at hb
        obtain ⟨rfl, rfl, rfl⟩ := hb
        exact h' _ _ _ ha
      · exact h
    · rcases saveFrame_mem hm with h1 | ⟨n', h1 | h1⟩
      · exact h' _ _ _ h1
      · injection h1 with _ e2 e3
        rw [e2, e3]
        exact hrefl _ _
      · cases h1
  intro fuel
  induction fuel with
  | zero =>
    intro k s hi hp hc
    unfold loop
    split_ifs
    · exact hp
    · exact hfin s hp
  | succ fuel ih =>
    intro k s hi hp hc
    unfold loop
    split_ifs with hlt
    swap
    · exact hfin s hp
    rcases loopBody_cases (C := C) (ph := ph) (gf := gf) s with h | ⟨_, _, _, _, _, h⟩ |
      ⟨dt, g, w, hu, hmin, -, hg, hst, h⟩
    · simp [h, filesOf]
    · simp only [h, filesOf]; exact hp
    have hG := hstep k s dt g w ⟨hi, hlt, hu, hst⟩
    set s1 : LoopState d W := { s with w := w, gravity := g, time := s.time + dt, step := s.step + 1 } with hs1
    have hc1 : ∀ n t w, .particles n t w ∈ s1.out → Rel t w s1.time s1.w := fun n t w hm =>
      htrans _ _ _ _ _ _ (hc n t w hm) hG
    obtain ⟨e1, e2⟩ : (endOfFrame C s1).out.Pairwise (FilesRel Rel) ∧
        ∀ n t w, .particles n t w ∈ (endOfFrame C s1).out → Rel t w (endOfFrame C s1).time (endOfFrame C s1).w := by
      rw [endOfFrame_w, endOfFrame_time]
      simp only [endOfFrame]
      split_ifs
      · exact hsave { s1 with frame := s1.frame + 1 } hp hc1
      · exact ⟨hp, hc1⟩
    simp only at h
    split_ifs at h
    · simp only [h, filesOf]
      exact hfin _ (hsave _ e1 e2).1
    · have hr := Reach.next hi hlt h
      simp only [h]
      exact ih _ _ hr e1 e2

end loop

section run
variable {d : ℕ} {R : Setup (d + 2)} {i e : Bool} {fuel : ℕ}
  {s : LoopState (d + 2) (World (d + 2))}

/-- The state at the start of the main loop: time and frame are zero, with `use_mibf` the friction
coefficients are set, the first two files are written. -/
def begin (R : Setup (d + 2)) (s : LoopState (d + 2) (World (d + 2))) :
    LoopState (d + 2) (World (d + 2)) :=
  startState R.C { s with w := fillMuI R.m R.S.P.useMibf s.w }

/-- `StepOf R s s1 dt g w`: in a run of `simulate` on the state `s`, the loop gets into state `s1` and
advances it successfully by the time `dt` with gravity `g`, leading to `w`. -/
def StepOf (R : Setup (d + 2)) (s s1 : LoopState (d + 2) (World (d + 2))) (dt : ℝ)
    (g : Fin (d + 2) → ℝ) (w : World (d + 2)) : Prop :=
  ∃ k, StepTaken R.C (physics R) s.gravity (begin R s) k s1 dt g w

lemma begin_w : (begin R s).w = fillMuI R.m R.S.P.useMibf s.w := by
  simp only [begin, startState]; split_ifs <;> rfl
lemma begin_time : (begin R s).time = 0 := start_time _
lemma begin_gravity : (begin R s).gravity = s.gravity := start_gravity _
lemma begin_step : (begin R s).step = s.step := by
  simp only [begin, startState]; split_ifs <;> rfl

/-- Where the particle files of a run come from. -/
lemma run_particles {n : ℕ} {t : ℝ} {w : World (d + 2)}
    (hev : .particles n t w ∈ filesOf (runProgram R i e fuel s)) (hnew : .particles n t w ∉ s.out) :
    (n = 0 ∧ t = 0 ∧ w = (begin R s).w) ∨ ∃ s1 dt g, StepOf R s s1 dt g w ∧ t = s1.time + dt := by
  simp only [runProgram] at hev
  split_ifs at hev with ha
  swap
  · exact absurd hev hnew
  rw [simulate_eq ha] at hev
  rcases loop_files fuel 0 _ (.start) _ hev with h | ⟨_, h⟩ | ⟨k, s1, dt, g, w', n', h, h'⟩
  · rw [begin_w]
    simp only [startState] at h
    split_ifs at h
    · simp only [List.mem_append, List.mem_cons, List.not_mem_nil, or_false, reduceCtorEq, false_or,
        Event.particles.injEq] at h
      rcases h with h | h
      · exact absurd h hnew
      · exact .inl h
    · exact absurd h hnew
  · cases h
  · rcases h' with h' | h'
    · injection h' with h1 h2 h3
      subst h3
      exact .inr ⟨s1, dt, g, ⟨k, h⟩, h2⟩
    · cases h'

/-- Invariants of the states of a run. -/
lemma run_inv {Inv : World (d + 2) → ℝ → ℕ → (Fin (d + 2) → ℝ) → Prop}
    (h0 : Inv (begin R s).w 0 s.step s.gravity)
    (hstep : ∀ s1 dt g w, StepOf R s s1 dt g w → Inv s1.w s1.time s1.step s1.gravity →
      Inv w (s1.time + dt) (s1.step + 1) g) {s1 : LoopState (d + 2) (World (d + 2))} {dt : ℝ}
    {g : Fin (d + 2) → ℝ} {w : World (d + 2)} (h : StepOf R s s1 dt g w) :
    Inv s1.w s1.time s1.step s1.gravity ∧ Inv w (s1.time + dt) (s1.step + 1) g := by
  have key : ∀ k s1, Reach R.C (physics R) s.gravity (begin R s) k s1 →
      Inv s1.w s1.time s1.step s1.gravity := fun k s1 hr =>
    reach_inv (by rw [begin_time, begin_gravity, begin_step]; exact h0)
      (fun k s dt g w hs => hstep s dt g w ⟨k, hs⟩) hr
  obtain ⟨k, hk⟩ := h
  have := key k s1 hk.1
  exact ⟨this, hstep _ _ _ _ ⟨k, hk⟩ this⟩

lemma StepOf.phys {s1 : LoopState (d + 2) (World (d + 2))} {dt : ℝ}
    {g : Fin (d + 2) → ℝ} {w : World (d + 2)} (h : StepOf R s s1 dt g w) :
    physStep R s1.w dt g s1.time s1.step = some (w, false) := by
  obtain ⟨k, hk⟩ := h
  exact hk.2.2.2

lemma StepOf.dt_ge {s1 : LoopState (d + 2) (World (d + 2))} {dt : ℝ}
    {g : Fin (d + 2) → ℝ} {w : World (d + 2)} (h : StepOf R s s1 dt g w) :
    R.C.minDt ≤ dt ∧ g = rampGravity R.C s.gravity s1.gravity s1.time := by
  obtain ⟨k, hk⟩ := h
  have := hk.2.2.1
  simp only [updateDt, Option.map_eq_some_iff, Prod.mk.injEq] at this
  obtain ⟨sp, _, hdt, hg⟩ := this
  exact ⟨hdt ▸ chooseDt_ge, hg.symm⟩

/-! ### C56 -/

/-- A property established by every plastic update, independent of position and velocity, holds for all
particles of all files but the one of the initial state. -/
lemma saved_particle {P : Particle (d + 2) ℝ → Prop} (hP : ∀ p x v, P p → P { p with x := x, v := v })
    (hupd : ∀ dt q r, R.C.minDt ≤ dt → plasticUpdate R dt q = some r → r.2 = false → P r.1)
    {n : ℕ} {t : ℝ} {w : World (d + 2)}
    (hev : .particles n t w ∈ filesOf (runProgram R i e fuel s)) (hnew : .particles n t w ∉ s.out) :
    (n = 0 ∧ t = 0 ∧ w = (begin R s).w) ∨ ∀ p ∈ w.ps, P p := by
  rcases run_particles hev hnew with h | ⟨s1, dt, g, h, -⟩
  · exact .inl h
  · right
    intro p hp
    obtain ⟨q, r, x, v, h1, rfl, h3⟩ := physStep_particle h.phys hp
    refine hP _ _ _ (hupd dt q r h.dt_ge.1 h1 ?_)
    cases hr : r.2 with
    | false => rfl
    | true => exact absurd (h3 hr) (by simp)

lemma plasticUpdate_some {dt : ℝ} {q : Particle (d + 2) ℝ} {r : Particle (d + 2) ℝ × Bool}
    (h : plasticUpdate R dt q = some r) :
    ∃ out, plasticity R.cabs R.svd R.m dt q false = some out ∧ r = (out.q, out.exit) := by
  simp only [plasticUpdate, Option.map_eq_some_iff] at h
  obtain ⟨out, h1, h2⟩ := h
  exact ⟨out, h1, h2.symm⟩

/-- **C56** With the von Mises model, in every particle file of a run except that of the initial state, no
particle has a shear stress above the yield stress; stresses are symmetric. -/
theorem C56_vonMises (ok : MatOk R.m (d + 2)) (hm : R.m.plastic = .vm) (hq : 0 ≤ R.m.qMax)
    (hsvd : ∀ F, IsSvd F (R.svd F)) {n : ℕ} {t : ℝ} {w : World (d + 2)}
    (hev : .particles n t w ∈ filesOf (runProgram R i e fuel s)) (hnew : .particles n t w ∉ s.out) :
    (n = 0 ∧ t = 0 ∧ w = (begin R s).w) ∨
      ∀ p ∈ w.ps, savedQ R.m.qPrefac p.tau ≤ R.m.qMax ∧ p.tauᵀ = p.tau := by
  refine saved_particle (P := fun p => savedQ R.m.qPrefac p.tau ≤ R.m.qMax ∧ p.tauᵀ = p.tau)
    (fun p x v h => h) (fun dt q r _ h _ => ?_) hev hnew
  obtain ⟨out, ho, rfl⟩ := plasticUpdate_some h
  obtain ⟨out', h', h1, -⟩ := C34_vonMises (cabs := R.cabs) ok hm hq dt q false (hsvd q.F)
  rw [ho] at h'
  obtain rfl := Option.some.inj h'
  exact ⟨(show newQ R.m out ≤ _ by rw [h1]; exact min_le_right _ _), C44_symmetric ho⟩

/-- **C56** The same for Drucker-Prager: shear stress and pressure are below the yield line. -/
theorem C56_druckerPrager (ok : MatOk R.m (d + 2)) (hm : R.m.plastic = .dp) (hM : 0 < R.m.M)
    (hc : 0 ≤ R.m.qCohesion) (hsvd : ∀ F, IsSvd F (R.svd F)) {n : ℕ} {t : ℝ} {w : World (d + 2)}
    (hev : .particles n t w ∈ filesOf (runProgram R i e fuel s)) (hnew : .particles n t w ∉ s.out) :
    (n = 0 ∧ t = 0 ∧ w = (begin R s).w) ∨
      ∀ p ∈ w.ps, savedQ R.m.qPrefac p.tau ≤ R.m.M * savedP p.tau + R.m.qCohesion ∧
        -R.m.qCohesion / R.m.M ≤ savedP p.tau ∧ p.tauᵀ = p.tau := by
  refine saved_particle (P := fun p => savedQ R.m.qPrefac p.tau ≤ R.m.M * savedP p.tau + R.m.qCohesion ∧
        -R.m.qCohesion / R.m.M ≤ savedP p.tau ∧ p.tauᵀ = p.tau)
    (fun p x v h => h) (fun dt q r _ h _ => ?_) hev hnew
  obtain ⟨out, ho, rfl⟩ := plasticUpdate_some h
  obtain ⟨out', h', h1, h2, -⟩ := C35_druckerPrager (cabs := R.cabs) ok hm hM hc dt q false (hsvd q.F)
  rw [ho] at h'
  obtain rfl := Option.some.inj h'
  exact ⟨h1, h2, C44_symmetric ho⟩

/-- **C56** For every plastic model except the viscous von Mises one: in every particle file of a run
except that of the initial state, the stress of a particle is symmetric, and it is the elastic stress of
its stored deformation gradient if that has no singular value below 1e-4. -/
theorem C56_elastic (ok : MatOk R.m (d + 2)) (hm : R.m.plastic ≠ .vmVisc)
    (hsvd : ∀ F, IsSvd F (R.svd F)) {n : ℕ} {t : ℝ} {w : World (d + 2)}
    (hev : .particles n t w ∈ filesOf (runProgram R i e fuel s)) (hnew : .particles n t w ∉ s.out) :
    (n = 0 ∧ t = 0 ∧ w = (begin R s).w) ∨
      ∀ p ∈ w.ps, p.tauᵀ = p.tau ∧ ((∀ σ, IsSvd p.F σ → ∀ a, 1e-4 ≤ σ.sig a) →
        IsHenckyStress R.m.lam R.m.mu p.F p.tau) := by
  refine saved_particle (P := fun p => p.tauᵀ = p.tau ∧ ((∀ σ, IsSvd p.F σ → ∀ a, 1e-4 ≤ σ.sig a) →
        IsHenckyStress R.m.lam R.m.mu p.F p.tau))
    (fun p x v h => h) (fun dt q r _ h _ => ?_) hev hnew
  obtain ⟨out, ho, rfl⟩ := plasticUpdate_some h
  exact ⟨C44_symmetric ho, C42_stored ok (hsvd q.F) (fun h => absurd h hm) ho⟩

/-! ### C57 -/

lemma arange_uniform {a b dx : ℝ} (hdx : 0 < dx) {l : List ℝ} (h : arange a b dx = some l) :
    UniformAxis dx l := by
  rw [arange_eq hdx] at h
  obtain rfl := Option.some.inj h
  exact ⟨a, by simp⟩

lemma chooseGrid_uniform {S : StepParams (d + 2) ℝ} {σ : SimState (d + 2) ℝ} {bg}
    (hpbc : S.pbc = false) (hdx : 0 < S.P.dx) (h : chooseGrid S σ = some bg) (a : Fin (d + 2)) :
    UniformAxis S.P.dx (bg.2 a) := by
  simp only [chooseGrid, hpbc, Bool.false_eq_true, if_false] at h
  split_ifs at h
  · simp only [Option.map_eq_some_iff, remeshInit, Option.bind_eq_bind, Option.bind_eq_some_iff,
      Option.some.injEq] at h
    obtain ⟨_, ⟨ai, _, g, hg, rfl⟩, rfl⟩ := h
    exact arange_uniform hdx (of_sequenceFin_some hg a)
  · simp only [Option.bind_eq_some_iff, Option.map_eq_some_iff] at h
    obtain ⟨b, _, g, hg, rfl⟩ := h
    have := of_sequenceFin_some hg a
    simp only [axisContNodes, Option.bind_eq_bind, Option.bind_eq_some_iff] at this
    obtain ⟨mx, _, mn, _, h5⟩ := this
    exact arange_uniform hdx h5

/-- In a step that did not read or write outside of the grid, all particles were inside. -/
lemma physStep_goodGrid {dt t : ℝ} {g : Fin (d + 2) → ℝ} {n : ℕ} {w w' : World (d + 2)} {ex : Bool}
    (hpbc : R.S.pbc = false) (hdx : 0 < R.S.P.dx) (h1 : R.S.P.oneOverDx = 1 / R.S.P.dx)
    (h : physStep R w dt g t n = some (w', ex)) : GoodGrid R.S.P.dx w'.g w.ps := by
  obtain ⟨fr, h⟩ := physStep_advance h
  simp only [advanceStep, stepOnGrid, Option.bind_eq_bind, Option.bind_eq_some_iff] at h
  obtain ⟨bg, hbg, ps, h, h'⟩ := h
  injection h' with h'
  injection h' with _ _ hg _
  rw [← hg]
  have hu := chooseGrid_uniform hpbc hdx hbg
  refine ⟨hdx, hu, ?_⟩
  simp only [hpbc, Bool.false_eq_true, if_false, ne_eq, not_true_eq_false, and_false, Option.bind_some,
    Option.bind_eq_bind, Option.bind_eq_some_iff, G2P] at h
  obtain ⟨arr, _, qs, ⟨ss, hss, _⟩, _⟩ := h
  intro p hp
  rw [← stencilG2P_isSome_iff (deg := R.S.P.deg) hdx hu, ← h1]
  have := withStencils_forall₂ hss
  obtain ⟨⟨p', st⟩, hmem, hps⟩ : ∃ x ∈ ss, x.1 = p := by
    obtain ⟨k, hk, rfl⟩ := List.mem_iff_getElem.mp hp
    have hk' : k < ss.length := by rw [← this.length_eq]; exact hk
    exact ⟨ss[k], List.getElem_mem _, by simpa using List.forall₂_iff_get.mp this |>.2 k hk hk'⟩
  obtain ⟨a, ha, hsome⟩ := mapM_mem hss _ hmem
  simp only [Option.map_eq_some_iff, Prod.mk.injEq] at hsome
  obtain ⟨st', hst, rfl, rfl⟩ := hsome
  simp only at hps
  subst hps
  rw [hst]; rfl

/-- **C57** Without walls and periodic boundaries: in every file of a run the number of particles is the
initial one, and the momentum is the initial one plus `c m N g` with `c` the time of the file, or, with the
gravity ramp, some `c` between zero and that time. The hypothesis on weights excludes interpolation weights
between zero and 1e-25, which the program drops. -/
theorem C57_momentum {deg : Deg} {dx fr m vol : ℝ} {mibf : Bool}
    (hS : R.S.P = mkTransferParams deg dx fr mibf m vol) (hd : deg ≠ .one) (hdx : 0 < dx) (hm : 0 < m)
    (hpbc : R.S.pbc = false) (hobj : R.objs = []) (hpl : s.w.plates = [])
    (hsched : ∀ k ps, (R.sched k ps).flatten.Perm ps) (hmin : 0 ≤ R.C.minDt)
    (hn : ∀ s1 dt g w, StepOf R s s1 dt g w → NoTinyWeights deg dx w.g s1.w.ps)
    {n : ℕ} {t : ℝ} {w : World (d + 2)}
    (hev : .particles n t w ∈ filesOf (runProgram R i e fuel s)) (hnew : .particles n t w ∉ s.out) :
    w.ps.length = s.w.ps.length ∧ 0 ≤ t ∧
      ∃ c, 0 ≤ c ∧ c ≤ t ∧ (R.C.gravitySpecial = false → c = t) ∧
        momentum m w.ps = momentum m s.w.ps + (c * (s.w.ps.length * m)) • s.gravity := by
  have hbeg : (begin R s).w.ps.length = s.w.ps.length ∧ (begin R s).w.plates = [] ∧
      momentum m (begin R s).w.ps = momentum m s.w.ps := by
    rw [begin_w]
    unfold fillMuI
    by_cases hmi : R.S.P.useMibf = true
    · rw [if_pos hmi]
      refine ⟨by simp, hpl, ?_⟩
      simp only [momentum, List.map_map]
      rfl
    · rw [if_neg hmi]
      exact ⟨rfl, hpl, rfl⟩
  let Inv : World (d + 2) → ℝ → ℕ → (Fin (d + 2) → ℝ) → Prop := fun w t _ g =>
    w.plates = [] ∧ (R.C.gravitySpecial = false → g = s.gravity) ∧
    w.ps.length = s.w.ps.length ∧ 0 ≤ t ∧
      ∃ c, 0 ≤ c ∧ c ≤ t ∧ (R.C.gravitySpecial = false → c = t) ∧
        momentum m w.ps = momentum m s.w.ps + (c * (s.w.ps.length * m)) • s.gravity
  have h0 : Inv (begin R s).w 0 s.step s.gravity :=
    ⟨hbeg.2.1, fun _ => rfl, hbeg.1, le_rfl, 0, le_rfl, le_rfl, fun _ => rfl, by rw [hbeg.2.2]; simp⟩
  have hPdx : R.S.P.dx = dx := by rw [hS]; rfl
  have hstep : ∀ s1 dt g w, StepOf R s s1 dt g w → Inv s1.w s1.time s1.step s1.gravity →
      Inv w (s1.time + dt) (s1.step + 1) g := by
    rintro s1 dt g w hst ⟨i1, i2, i3, i4, c, c0, ct, cs, i5⟩
    have hgood := physStep_goodGrid hpbc (by rw [hPdx]; exact hdx) (by rw [hS]; rfl) hst.phys
    rw [hPdx] at hgood
    obtain ⟨hdt, hg⟩ := hst.dt_ge
    have hdt0 : 0 ≤ dt := hmin.trans hdt
    obtain ⟨fr', ha⟩ := physStep_advance hst.phys
    have hplates : w.plates = [] := by
      have := hst.phys
      simp only [physStep, Option.bind_eq_bind, Option.bind_eq_some_iff] at this
      obtain ⟨bg, h1, h⟩ := this
      simp only [hpbc, Bool.false_eq_true, if_false, ne_eq, not_true_eq_false, and_false, Option.bind_some,
        Option.bind_eq_some_iff] at h
      obtain ⟨arr, h2, qs, h3, h⟩ := h
      by_cases hu : R.S.useMusl = true
      · simp only [if_pos hu, Option.bind_eq_some_iff] at h
        obtain ⟨r, h4, qv, h5m, h⟩ := h
        obtain ⟨qs', h5, rfl⟩ := Option.map_eq_some_iff.mp h5m
        obtain ⟨rfl, -⟩ := Prod.mk.inj (Option.some.inj h)
        simp [i1]
      · simp only [if_neg hu, Option.bind_some] at h
        obtain ⟨rfl, -⟩ := Prod.mk.inj (Option.some.inj h)
        simp [i1]
    simp only [advanceStep, hpbc, Bool.false_eq_true, if_false, List.append_nil, Option.bind_eq_bind,
      Option.bind_eq_some_iff] at ha
    obtain ⟨bg, hbg, qs, hqs, hσ⟩ := ha
    injection hσ with hσ
    injection hσ with hps _ hgg _
    obtain ⟨qs', h1, h2, h3⟩ := C04_step (S := R.S) (dt := dt) (grav := g)
      (bc := boundaryCollision R.ops R.S.P.useMibf fr' dt R.objs s1.w.plates)
      (plast := plastTotal R dt) (threads := R.sched s1.step s1.w.ps) hS hd hm
      hgood (hn _ _ _ _ hst) (hsched _ _)
      (by intro i _ v; rw [hobj, i1]; rfl) (plastTotal_keeps R dt)
    rw [← hgg, hqs] at h1
    have hw : w.ps = qs' := by rw [← hps]; exact Option.some.inj h1
    have hramp : ∃ f : ℝ, 0 ≤ f ∧ f ≤ 1 ∧ (R.C.gravitySpecial = false → f = 1) ∧ g = f • s.gravity := by
      rw [hg]
      unfold rampGravity
      cases hsp : R.C.gravitySpecial with
      | false => exact ⟨1, zero_le_one, le_rfl, fun _ => rfl, by simp [i2 hsp]⟩
      | true =>
        simp only [if_true]
        split_ifs with hlt
        · have hpos : 0 < R.C.gravityTime := lt_of_le_of_lt i4 hlt
          refine ⟨1 / R.C.gravityTime * s1.time, by positivity, ?_, fun h => (by cases h), by rw [smul_smul]⟩
          rw [one_div, inv_mul_le_iff₀ hpos]; linarith
        · exact ⟨1, zero_le_one, le_rfl, fun _ => rfl, by simp⟩
    obtain ⟨f, f0, f1, fs, hf⟩ := hramp
    have hfd := mul_le_mul_of_nonneg_right f1 hdt0
    refine ⟨hplates, fun hsp => by rw [hf, fs hsp, one_smul], by rw [hw]; exact h2.trans i3, by linarith, c + f * dt,
      by positivity, by linarith, fun hsp => by rw [fs hsp, cs hsp, one_mul], ?_⟩
    rw [hw, h3, i5, i3, hf, smul_smul, add_assoc, ← add_smul]
    congr 2
    ring
  rcases run_particles hev hnew with ⟨rfl, rfl, rfl⟩ | ⟨s1, dt, g, hst, rfl⟩
  · exact ⟨hbeg.1, le_rfl, 0, le_rfl, le_rfl, fun _ => rfl, by rw [hbeg.2.2]; simp⟩
  · obtain ⟨-, -, h1, h2, h3⟩ := (run_inv (Inv := Inv) h0 hstep hst).2
    exact ⟨h1, h2, h3⟩

/-! ### C58 -/

/-- Settings for which the plastic update is defined for every particle state and positive time step.
(For the first line the model has no undefined outcome; the conditions exclude divisions by zero.) -/
def Robust (R : Setup (d + 2)) : Prop :=
  (R.m.plastic = .noPlasticity ∧ R.m.elastic = .hencky ∨ MatOk R.m (d + 2) ∧ R.m.plastic = .vm ∨
    MatOk R.m (d + 2) ∧ 0 < R.m.M ∧ (R.m.plastic = .dp ∨ R.m.plastic = .dpSoft) ∨
    (MatOk R.m (d + 2) ∧ 0 < R.m.mu1 ∧ R.m.mu1 < R.m.mu2 ∧ 0 < R.m.facQ ∧ 0 ≤ R.m.qCohesion ∧
      0 ≤ R.m.stressTol) ∧ R.m.plastic = .dpMui) ∨
  (MatOk R.m (d + 2) ∧ (R.m.plastic = .vmVisc ∨ R.m.plastic = .dpVisc) ∧ 1 ≤ R.m.viscExponent ∧
    0 ≤ R.m.viscTime) ∨
  (CamOk R.m ∧ R.m.plastic = .mcc ∧ isImplicit R.m.hardening = false ∧ 0 ≤ R.m.M ∧
    (R.m.useMibf = false ∨ R.m.hardening ≠ .noHard) ∧ R.cabs 0 = 0)

lemma robust_defined (h : Robust R) {dt : ℝ} (hdt : 0 < dt) (q : Particle (d + 2) ℝ) :
    (plasticUpdate R dt q).isSome := by
  suffices ∃ out, plasticity R.cabs R.svd R.m dt q false = some out by
    obtain ⟨out, ho⟩ := this
    simp [plasticUpdate, ho]
  rcases h with h | ⟨ok, hm, hn, hτ⟩ | ⟨cam, hm, hh, hM, hmi, hc⟩
  · rcases h with ⟨h, he⟩ | ⟨-, h⟩ | ⟨-, -, h | h⟩ | ⟨-, h⟩
    · exact ⟨_, plasticity_some.mpr ⟨_, (plastModel_noPlasticity h).mpr ⟨fun e => (by rw [he] at e; cases e), rfl⟩, rfl⟩⟩
    all_goals
      exact ⟨_, plasticity_some.mpr ⟨_, by simp only [plastModel, h]; rfl, rfl⟩⟩
  · exact C51_defined ok hm hn hτ hdt q false
  · exact C40_camClay_defined hc cam hm hh hM hmi dt q false

/-- The displacement `D`, in cells, is at least one cell and exceeds a whole number of cells by less than
`1e-8 dx`. -/
def InWindow (dx D : ℝ) : Prop := 1 ≤ D ∧ Int.fract D < 1 / 10 ^ 8 * dx

/-- An outermost particle of the cloud `ps` has moved outwards, relative to the box of the initial cloud
`ps0` and the reference point, by a distance in the critical window. -/
def Critical (R : Setup (d + 2)) (ps0 ps : List (Particle (d + 2) ℝ)) : Prop :=
  ∃ a m m0, (IsLeast {y | ∃ p ∈ ps, p.x a = y} m ∧ IsLeast (coords R.S.ref (ps0.map fun p => p.x) a) m0 ∧
      InWindow R.S.P.dx ((m0 - m) / R.S.P.dx)) ∨
    (IsGreatest {y | ∃ p ∈ ps, p.x a = y} m ∧ IsGreatest (coords R.S.ref (ps0.map fun p => p.x) a) m0 ∧
      InWindow R.S.P.dx ((m - m0) / R.S.P.dx))

/-- If every step on a grid that covers the particles is defined, undefined behaviour can only come from the
critical window. -/
lemma only_window_of {deg : Deg} {dx fr m vol : ℝ} {mibf : Bool}
    (hS : R.S.P = mkTransferParams deg dx fr mibf m vol) (hdx : 0 < dx)
    (hpbc : R.S.pbc = false) (hfresh : s.step = 0) (hne : s.w.ps ≠ []) (hmin : 0 < R.C.minDt)
    (hdef : ∀ k s1 dt g bg, Reach R.C (physics R) s.gravity (begin R s) k s1 → 0 < dt →
      updateDt R.C s.gravity s1.frame s1.time ((physics R).velocities s1.w) s1.gravity = some (dt, g) →
      chooseGrid R.S ⟨s1.w.ps, s1.w.box, s1.w.g, s1.step⟩ = some bg → GoodGrid dx bg.2 s1.w.ps →
      ∃ r, physStep R s1.w dt g s1.time s1.step = some r)
    (h : runProgram R i e fuel s = .ub) :
    ∃ k s1, Reach R.C (physics R) s.gravity (begin R s) k s1 ∧ 0 < k ∧ s1.frame < R.C.endFrame ∧
      Critical R s.w.ps s1.w.ps := by
  have hPdx : R.S.P.dx = dx := by rw [hS]; rfl
  have hP1 : R.S.P.oneOverDx = 1 / dx := by rw [hS]; rfl
  have hPdeg : R.S.P.deg = deg := by rw [hS]; rfl
  have hbeg : (begin R s).w.ps.map (fun p => p.x) = s.w.ps.map fun p => p.x := by
    rw [begin_w]
    unfold fillMuI
    by_cases hmi : R.S.P.useMibf = true
    · rw [if_pos hmi]; simp [Function.comp_def]
    · rw [if_neg hmi]
  simp only [runProgram] at h
  split_ifs at h with ha
  rw [simulate_eq ha] at h
  obtain ⟨k, s1, hr, hlt, hbad⟩ := loop_ub fuel 0 _ .start h
  refine ⟨k, s1, hr, ?_⟩
  -- invariant
  have hinv : s1.step = k ∧ s1.w.ps ≠ [] ∧ (k = 0 → s1.w.ps.map (fun p => p.x) = s.w.ps.map fun p => p.x) ∧ (0 < k → ∃ r,
      remeshInit dx R.S.ref (s.w.ps.map fun p => p.x) = some r ∧ s1.w.box = some r.1) := by
    clear hbad h hlt
    change Reach R.C (physics R) s.gravity (begin R s) k s1 at hr
    induction hr with
    | start => exact ⟨by rw [begin_step, hfresh], fun h => hne (by rw [h] at hbeg; simpa using hbeg.symm), fun _ => hbeg, fun h => absurd h (lt_irrefl 0)⟩
    | @next k s1 s2 hr hlt hb ih =>
      obtain ⟨i1, i2, i3, i4⟩ := ih
      rcases loopBody_cases (C := R.C) (ph := physics R) (gf := s.gravity) s1 with h | ⟨_, _, _, _, _, h⟩ |
        ⟨dt, g, w, hu, hmin, -, hg, hst, h⟩
      · rw [h] at hb; cases hb
      · rw [h] at hb; cases hb
      simp only at h
      rw [h] at hb
      split_ifs at hb
      injection hb with hb
      rw [← hb, endOfFrame_w, endOfFrame_step]
      refine ⟨by rw [← i1], ?_, fun h => absurd h (by omega), fun _ => ?_⟩
      · have := (physStep_forall₂ hst).length_eq
        intro h0
        rw [h0] at this
        exact i2 (List.length_eq_zero_iff.mp this)
      · obtain ⟨fr', hadv⟩ := physStep_advance hst
        simp only [advanceStep, Option.bind_eq_bind, Option.bind_eq_some_iff] at hadv
        obtain ⟨bg, hbg, ps, -, hσ⟩ := hadv
        injection hσ with hσ
        injection hσ with _ hbox _ _
        rw [← hbox]
        simp only [chooseGrid, hpbc, Bool.false_eq_true, if_false] at hbg
        by_cases h0 : s1.step = 0
        · rw [if_pos h0, Option.map_eq_some_iff, hPdx, i3 (by omega)] at hbg
          obtain ⟨r, hr, rfl⟩ := hbg
          exact ⟨r, hr, rfl⟩
        · rw [if_neg h0] at hbg
          obtain ⟨r, h1, h2⟩ := i4 (by omega)
          rw [h2] at hbg
          simp only [Option.bind_some, Option.map_eq_some_iff] at hbg
          obtain ⟨g', -, rfl⟩ := hbg
          exact ⟨r, h1, rfl⟩
  obtain ⟨i1, i2, i3, i4⟩ := hinv
  rcases hbad with hbad | ⟨dt, g, hu, hbad⟩
  · simp [physics] at hbad; exact absurd hbad i2
  have hdt : 0 < dt := by
    simp only [updateDt, Option.map_eq_some_iff, Prod.mk.injEq] at hu
    obtain ⟨sp, _, hdt, _⟩ := hu
    exact lt_of_lt_of_le hmin (hdt ▸ chooseDt_ge)
  -- a good grid makes the step defined
  have hgood : ∀ bg, chooseGrid R.S ⟨s1.w.ps, s1.w.box, s1.w.g, s1.step⟩ = some bg →
      GoodGrid dx bg.2 s1.w.ps → False := by
    intro bg hbg hG
    obtain ⟨r, hr⟩ := hdef k s1 dt g bg hr hdt hu hbg hG
    have : physStep R s1.w dt g s1.time s1.step = none := hbad
    rw [hr] at this
    cases this
  rcases Nat.eq_zero_or_pos k with hk | hk
  · exfalso
    obtain ⟨r, h1, h2, -⟩ := C13_first_step deg hdx R.S.ref i2
    refine hgood (some r.1, r.2) ?_ h2
    simp only [chooseGrid, hpbc, Bool.false_eq_true, if_false, i1, hk, if_true, hPdx, h1, Option.map_some]
  · refine ⟨hk, hlt, ?_⟩
    by_contra hcrit
    obtain ⟨r, h1, h2⟩ := i4 hk
    have hoff : ∀ D, ¬ InWindow dx D → OffWindow dx D := by
      intro D hD
      by_contra hc
      simp only [OffWindow, not_or, not_lt, not_le] at hc
      exact hD hc
    simp only [Critical, hPdx] at hcrit
    obtain ⟨g', h3, h4, -⟩ := C14_later_steps_partial deg hdx (by simpa using hne) h1 i2
      (fun a m hm m0 hm0 => hoff _ fun hw => hcrit ⟨a, m, m0, .inl ⟨hm, hm0, hw⟩⟩)
      (fun a m hm m0 hm0 => hoff _ fun hw => hcrit ⟨a, m, m0, .inr ⟨hm, hm0, hw⟩⟩)
    refine hgood (some r.1, g') ?_ h4
    have : s1.step ≠ 0 := by omega
    simp only [chooseGrid, hpbc, Bool.false_eq_true, if_false, if_neg this, h2, hPdx, h3, Option.bind_some,
      Option.map_some]

/-- **C58** In a fresh simulation without periodic boundaries and with at least one particle, undefined
behaviour (access outside of the grid, undefined conversion, 0/0) can only occur if at the beginning of some
step after the first an outermost particle is in the critical window. Whether it then occurs depends on
the direction, see `C14_false`, `C14_false_low`. -/
theorem C58_only_window {deg : Deg} {dx fr m vol : ℝ} {mibf : Bool}
    (hS : R.S.P = mkTransferParams deg dx fr mibf m vol) (hdx : 0 < dx)
    (hpbc : R.S.pbc = false) (hfresh : s.step = 0) (hne : s.w.ps ≠ [])
    (hsched : ∀ k ps, (R.sched k ps).flatten.Perm ps) (hmin : 0 < R.C.minDt) (hrob : Robust R)
    (h : runProgram R i e fuel s = .ub) :
    ∃ k s1, Reach R.C (physics R) s.gravity (begin R s) k s1 ∧ 0 < k ∧ s1.frame < R.C.endFrame ∧
      Critical R s.w.ps s1.w.ps := by
  have hP1 : R.S.P.oneOverDx = 1 / dx := by rw [hS]; rfl
  have hPdeg : R.S.P.deg = deg := by rw [hS]; rfl
  refine only_window_of hS hdx hpbc hfresh hne hmin (fun k s1 dt g bg _ hdt _ hbg hG => ?_) h
  exact physStep_isSome (robust_defined hrob hdt) fun bc => by
    obtain ⟨F, hF, -⟩ := stepOnGrid_eq (S := R.S) (dt := dt) (grav := g) (bc := bc)
      (threads := R.sched s1.step s1.w.ps) hPdeg hP1 hG (hsched _ _) (plastTotal_keeps R dt)
    simp only [advanceStep, hbg, hpbc, Bool.false_eq_true, if_false, List.append_nil,
      Option.bind_eq_bind, Option.bind_some, hF]
    exact ⟨_, rfl⟩

/-! ### C59 -/

/-- Models for which C59 is proved. -/
def Accumulates (m : Material) (d : ℕ) : Prop :=
  MatOk m d ∧ (m.plastic = .vm ∧ 0 ≤ m.qMax ∨ m.plastic = .dp ∧ 0 < m.M ∧ 0 ≤ m.qCohesion ∨
    m.plastic = .dpSoft ∧ 0 < m.M ∧ 0 ≤ m.qCohesion ∧ 0 ≤ m.xi)

lemma updated_epsPlDev (hA : Accumulates R.m (d + 2)) (hsvd : ∀ F, IsSvd F (R.svd F)) {dt : ℝ}
    {p p' : Particle (d + 2) ℝ} (h : Updated R dt p p') : p.epsPlDev ≤ p'.epsPlDev := by
  obtain ⟨q, r, x, v, ⟨_, _, _, _, _, _, hq⟩, hu, rfl, -⟩ := h
  obtain ⟨out, ho, rfl⟩ := plasticUpdate_some hu
  have e : q.epsPlDev = p.epsPlDev := by rw [hq]
  obtain ⟨ok, ⟨hm, h1⟩ | ⟨hm, h1, h2⟩ | ⟨hm, h1, h2, h3⟩⟩ := hA
  · obtain ⟨out', h', -, -, -, -, -, hle, -⟩ :=
      C34_vonMises (cabs := R.cabs) ok hm h1 dt q false (hsvd q.F)
    rw [ho] at h'
    obtain rfl := Option.some.inj h'
    rw [← e]; exact hle
  · obtain ⟨out', h', -, -, -, -, -, -, hle, -⟩ :=
      C35_druckerPrager (cabs := R.cabs) ok hm h1 h2 dt q false (hsvd q.F)
    rw [ho] at h'
    obtain rfl := Option.some.inj h'
    rw [← e]; exact hle
  · obtain ⟨out', h', -, -, hle, -⟩ :=
      C36_softening (cabs := R.cabs) ok hm h1 h2 h3 dt q false (hsvd q.F)
    rw [ho] at h'
    obtain rfl := Option.some.inj h'
    rw [← e]; exact hle

lemma forall₂_trans' {α : Type*} {R : α → α → Prop} (ht : ∀ a b c, R a b → R b c → R a c) {l m n : List α}
    (h1 : List.Forall₂ R l m) (h2 : List.Forall₂ R m n) : List.Forall₂ R l n :=
  (forall₂_trans h1 h2).imp fun _ _ ⟨b, h, h'⟩ => ht _ b _ h h'

lemma run_pairwise {Rel : ℝ → World (d + 2) → ℝ → World (d + 2) → Prop} (hrefl : ∀ t w, Rel t w t w)
    (htrans : ∀ t1 w1 t2 w2 t3 w3, Rel t1 w1 t2 w2 → Rel t2 w2 t3 w3 → Rel t1 w1 t3 w3)
    (hstep : ∀ s1 dt g w, StepOf R s s1 dt g w → Rel s1.time s1.w (s1.time + dt) w) (hout : s.out = []) :
    (filesOf (runProgram R i e fuel s)).Pairwise (FilesRel Rel) := by
  simp only [runProgram]
  split_ifs with ha
  swap
  · simp [filesOf, hout]
  rw [simulate_eq ha]
  refine loop_pairwise hrefl htrans (fun k s1 dt g w h => hstep s1 dt g w ⟨k, h⟩) fuel 0 _ .start ?_ ?_
  · simp only [startState, hout]
    split_ifs
    · simp only [List.nil_append, List.pairwise_cons, List.mem_singleton, forall_eq, List.not_mem_nil,
        false_imp_iff, implies_true, List.Pairwise.nil, and_true]
      intro na ta wa nb tb wb h1 _
      cases h1
    · exact .nil
  · intro n t w hm
    simp only [startState, hout] at hm ⊢
    split_ifs at hm ⊢
    · simp only [List.nil_append, List.mem_cons, reduceCtorEq, Event.particles.injEq, List.not_mem_nil, or_false,
        false_or] at hm
      obtain ⟨-, rfl, rfl⟩ := hm
      exact hrefl _ _
    · cases hm

/-- **C59** All particle files of a run contain the same number of particles and are written in the order of
time. -/
theorem C59_same_particles (hmin : 0 ≤ R.C.minDt) (hout : s.out = []) :
    (filesOf (runProgram R i e fuel s)).Pairwise
      (FilesRel fun t w t' w' => t ≤ t' ∧ w.ps.length = w'.ps.length) := by
  refine run_pairwise (fun t w => ⟨le_rfl, rfl⟩)
    (fun t1 w1 t2 w2 t3 w3 h1 h2 => ⟨h1.1.trans h2.1, h1.2.trans h2.2⟩) (fun s1 dt g w h => ⟨?_, ?_⟩) hout
  · have := h.dt_ge.1; linarith
  · exact (physStep_forall₂ h.phys).length_eq

/-- **C59** The `k`-th entries of all files belong to the same particle: its accumulated plastic shear strain
never decreases from one file to a later one. -/
theorem C59_plastic_strain (hA : Accumulates R.m (d + 2)) (hsvd : ∀ F, IsSvd F (R.svd F)) (hout : s.out = []) :
    (filesOf (runProgram R i e fuel s)).Pairwise
      (FilesRel fun _ w _ w' => List.Forall₂ (fun p p' => p.epsPlDev ≤ p'.epsPlDev) w.ps w'.ps) := by
  refine run_pairwise (fun t w => List.forall₂_same.mpr fun p _ => le_rfl)
    (fun t1 w1 t2 w2 t3 w3 h1 h2 => forall₂_trans' (R := fun p p' : Particle (d + 2) ℝ => p.epsPlDev ≤ p'.epsPlDev)
      (fun _ _ _ h h' => le_trans h h') h1 h2) (fun s1 dt g w h => ?_) hout
  exact (physStep_forall₂ h.phys).imp fun p p' hp => updated_epsPlDev hA hsvd hp

end run
end
end Verif.Props
