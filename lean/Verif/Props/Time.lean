import Verif.Model.Time
import Mathlib.Tactic.Linarith
import Mathlib.Tactic.FieldSimp
import Mathlib.Tactic.Ring
import Mathlib.Tactic.Positivity
import Mathlib.Tactic.NormNum
import Mathlib.LinearAlgebra.Matrix.Notation

set_option linter.unusedSectionVars false
set_option linter.unusedSimpArgs false

/-!
# C17 - C23: time steps, frames, termination, errors, gravity ramp
-/

namespace Verif.Props
open Verif Matrix
noncomputable section
variable {d : ℕ} {W : Type*}

/-! ### C17 -/

lemma maxElement_spec {vs : List (Fin d → ℝ)} {v : Fin d → ℝ} (h : maxElement vs = some v) :
    v ∈ vs ∧ ∀ w ∈ vs, w ⬝ᵥ w ≤ v ⬝ᵥ v := by
  have key : ∀ (ws : List (Fin d → ℝ)) (b : Fin d → ℝ),
      let r := ws.foldl (fun best w => if best ⬝ᵥ best < w ⬝ᵥ w then w else best) b
      (r = b ∨ r ∈ ws) ∧ b ⬝ᵥ b ≤ r ⬝ᵥ r ∧ ∀ w ∈ ws, w ⬝ᵥ w ≤ r ⬝ᵥ r := by
    intro ws
    induction ws with
    | nil => intro b; simp
    | cons a ws ih =>
      intro b
      simp only [List.foldl_cons]
      have := ih (if b ⬝ᵥ b < a ⬝ᵥ a then a else b)
      simp only at this
      obtain ⟨h1, h2, h3⟩ := this
      by_cases hc : b ⬝ᵥ b < a ⬝ᵥ a
      · simp only [if_pos hc] at h1 h2 h3 ⊢
        refine ⟨?_, hc.le.trans h2, ?_⟩
        · rcases h1 with h1 | h1
          · right; rw [h1]; exact List.mem_cons_self
          · right; exact List.mem_cons_of_mem _ h1
        · intro w hw
          rcases List.mem_cons.mp hw with rfl | hw
          · exact h2
          · exact h3 w hw
      · simp only [if_neg hc] at h1 h2 h3 ⊢
        refine ⟨?_, h2, ?_⟩
        · rcases h1 with h1 | h1
          · left; exact h1
          · right; exact List.mem_cons_of_mem _ h1
        · intro w hw
          rcases List.mem_cons.mp hw with rfl | hw
          · exact (not_lt.mp hc).trans h2
          · exact h3 w hw
  cases vs with
  | nil => simp [maxElement] at h
  | cons a ws =>
    simp only [maxElement, Option.some.injEq] at h
    have := key ws a
    simp only [h] at this
    obtain ⟨h1, h2, h3⟩ := this
    refine ⟨?_, ?_⟩
    · rcases h1 with h1 | h1
      · rw [h1]; exact List.mem_cons_self
      · exact List.mem_cons_of_mem _ h1
    · intro w hw
      rcases List.mem_cons.mp hw with rfl | hw
      · exact h2
      · exact h3 w hw

/-- **C17** Bounds of the time step. `√(v ⬝ᵥ v)` is the speed of a particle. -/
theorem C17_dt (C : TimeConfig d) (hcfl : 0 ≤ C.cfl * C.dx) {gf g g' : Fin d → ℝ} {frame : ℕ}
    {time dt : ℝ} {vs : List (Fin d → ℝ)} (h : updateDt C gf frame time vs g = some (dt, g')) :
    C.minDt ≤ dt ∧ (C.minDt < dt →
      dt ≤ C.cflElastic * C.dx / √(C.E / C.rho) ∧
      (∀ v ∈ vs, 1 / 10 ^ 10 < √(v ⬝ᵥ v) → dt ≤ C.cfl * C.dx / √(v ⬝ᵥ v)) ∧
      time + dt ≤ (frame + 1) / C.fps ∧ time + dt ≤ C.endFrame / C.fps) := by
  simp only [updateDt, maxSpeed, Option.map_map, Option.map_eq_some_iff, Function.comp] at h
  obtain ⟨v, hv, he⟩ := h
  simp only [Prod.mk.injEq] at he
  obtain ⟨hdt, -⟩ := he
  obtain ⟨-, hmax⟩ := maxElement_spec hv
  set speed := √(v ⬝ᵥ v) with hs
  have hs0 : 0 ≤ speed := Real.sqrt_nonneg _
  rw [← hdt]
  refine ⟨le_max_right _ _, fun hlt => ?_⟩
  simp only [chooseDt] at hlt ⊢
  rw [lt_max_iff] at hlt
  rcases hlt with hlt | hlt
  swap
  · exact absurd hlt (lt_irrefl _)
  rw [max_eq_left hlt.le]
  set dt0 := if |speed| > 1 / 10 ^ 10 then min (C.cfl * C.dx / speed) C.dtMax else C.dtMax with hdt0
  have h0 : dt0 ≤ C.dtMax := by
    rw [hdt0]; split_ifs
    · exact min_le_right _ _
    · exact le_rfl
  have hle : min (min dt0 (C.frameDt * (frame + 1) - time)) (C.finalTime - time) ≤ dt0 :=
    (min_le_left _ _).trans (min_le_left _ _)
  refine ⟨hle.trans h0, ?_, ?_, ?_⟩
  · intro w hw hws
    have hwv : √(w ⬝ᵥ w) ≤ speed := Real.sqrt_le_sqrt (hmax w hw)
    refine hle.trans ?_
    have hpos : 0 < √(w ⬝ᵥ w) := lt_trans (by positivity) hws
    have : |speed| > 1 / 10 ^ 10 := by rw [abs_of_nonneg hs0]; exact hws.trans_le hwv
    rw [hdt0, if_pos this]
    exact (min_le_left _ _).trans (div_le_div_of_nonneg_left hcfl hpos hwv)
  · have := (min_le_left (min dt0 (C.frameDt * (frame + 1) - time)) (C.finalTime - time)).trans
      (min_le_right _ _)
    have e : C.frameDt * (frame + 1) = (frame + 1) / C.fps := by rw [TimeConfig.frameDt]; ring
    rw [e] at this
    rw [e]
    linarith
  · have := min_le_right (min dt0 (C.frameDt * (frame + 1) - time)) (C.finalTime - time)
    have e : C.finalTime = C.endFrame / C.fps := by
      rw [TimeConfig.finalTime, TimeConfig.frameDt]; ring
    rw [e] at this
    rw [e]
    linarith

/-- The step is chosen for every non-empty set of particles. -/
theorem C17_defined (C : TimeConfig d) (gf g : Fin d → ℝ) (frame : ℕ) (time : ℝ)
    (vs : List (Fin d → ℝ)) (h : vs ≠ []) : (updateDt C gf frame time vs g).isSome := by
  cases vs with
  | nil => exact absurd rfl h
  | cons a vs => simp [updateDt, maxSpeed, maxElement]

/-! ### the loop -/

/-- `Reach C ph gf s0 k s`: after `k` iterations that did not end the loop, the loop condition is
tested in state `s`. -/
inductive Reach (C : TimeConfig d) (ph : Physics d W) (gf : Fin d → ℝ) (s0 : LoopState d W) :
    ℕ → LoopState d W → Prop
  | start : Reach C ph gf s0 0 s0
  | next {k : ℕ} {s s' : LoopState d W} : Reach C ph gf s0 k s → s.frame < C.endFrame →
      loopBody C ph gf s = .cont s' → Reach C ph gf s0 (k + 1) s'

/-- The files of frame `n`. -/
def frameFiles (C : TimeConfig d) (n : ℕ) (t : ℝ) (w : W) : List (Event W) :=
  [.particles n t w] ++ if C.saveGrid then [.grid n t w] else []

section
variable {C : TimeConfig d} {ph : Physics d W} {gf : Fin d → ℝ}

lemma saveFrame_eq (hs : C.saveSim = true) (s : LoopState d W) :
    saveFrame C s = { s with out := s.out ++ frameFiles C s.frame s.time s.w } := by
  simp only [saveFrame, hs, if_true, frameFiles, List.append_assoc]

lemma chooseDt_bounds {frame : ℕ} {time speed : ℝ} (hm : 0 < C.minDt) (hfd : 0 ≤ C.frameDt)
    (hf : frame < C.endFrame)
    (hR : C.minDt * (11 / 10) ≤ C.frameDt * (frame + 1) - time) :
    C.minDt ≤ chooseDt C frame time speed ∧
      chooseDt C frame time speed ≤ C.frameDt * (frame + 1) - time := by
  simp only [chooseDt]
  refine ⟨le_max_right _ _, max_le ?_ (by linarith)⟩
  exact (min_le_left _ _).trans (min_le_right _ _)

lemma chooseDt_ge {frame : ℕ} {time speed : ℝ} : C.minDt ≤ chooseDt C frame time speed :=
  le_max_right _ _

lemma final_ge {n : ℕ} (hfd : 0 ≤ C.frameDt) (h : n ≤ C.endFrame) : C.frameDt * n ≤ C.finalTime := by
  rw [TimeConfig.finalTime, mul_comm]
  exact mul_le_mul_of_nonneg_right (by exact_mod_cast h) hfd

/-- What one iteration does. -/
lemma loopBody_cases (s : LoopState d W) :
    (loopBody C ph gf s = .ub) ∨
    (∃ dt g w, updateDt C gf s.frame s.time (ph.velocities s.w) s.gravity = some (dt, g) ∧
      ph.step s.w dt g s.time s.step = some (w, true) ∧
      loopBody C ph gf s = .fail { s with w := w, gravity := g }) ∨
    (∃ dt g w, updateDt C gf s.frame s.time (ph.velocities s.w) s.gravity = some (dt, g) ∧
      C.minDt ≤ dt ∧ (∃ speed, dt = chooseDt C s.frame s.time speed) ∧
      g = rampGravity C gf s.gravity s.time ∧
      ph.step s.w dt g s.time s.step = some (w, false) ∧
      let s' := endOfFrame C { s with w := w, gravity := g, time := s.time + dt, step := s.step + 1 }
      loopBody C ph gf s = if |C.finalTime - s'.time| < C.minDt * (11 / 10) ∨ C.finalTime < s'.time
        then .brk (saveFrame C s') else .cont s') := by
  cases hu : updateDt C gf s.frame s.time (ph.velocities s.w) s.gravity with
  | none => left; simp only [loopBody, hu]
  | some r =>
    obtain ⟨dt, g⟩ := r
    have hu' := hu
    simp only [updateDt, Option.map_eq_some_iff, Prod.mk.injEq] at hu'
    obtain ⟨sp, _, hdt, hg⟩ := hu'
    cases hst : ph.step s.w dt g s.time s.step with
    | none => left; simp only [loopBody, hu, hst]
    | some r =>
      obtain ⟨w, b⟩ := r
      cases b
      · right; right
        exact ⟨dt, g, w, rfl, hdt ▸ chooseDt_ge, ⟨sp, hdt.symm⟩, hg.symm, hst, by
          simp only [loopBody, hu, hst]⟩
      · right; left
        exact ⟨dt, g, w, rfl, hst, by simp only [loopBody, hu, hst]⟩

lemma endOfFrame_time (s : LoopState d W) : (endOfFrame C s).time = s.time := by
  simp only [endOfFrame, saveFrame]; split_ifs <;> rfl
lemma endOfFrame_step (s : LoopState d W) : (endOfFrame C s).step = s.step := by
  simp only [endOfFrame, saveFrame]; split_ifs <;> rfl
lemma endOfFrame_gravity (s : LoopState d W) : (endOfFrame C s).gravity = s.gravity := by
  simp only [endOfFrame, saveFrame]; split_ifs <;> rfl
lemma endOfFrame_frame (s : LoopState d W) : (endOfFrame C s).frame =
    if C.frameDt * (s.frame + 1) - s.time < C.minDt * (11 / 10) then s.frame + 1 else s.frame := by
  simp only [endOfFrame, saveFrame]; split_ifs <;> rfl
lemma saveFrame_step (s : LoopState d W) : (saveFrame C s).step = s.step := by
  simp only [saveFrame]; split_ifs <;> rfl
lemma saveFrame_frame (s : LoopState d W) : (saveFrame C s).frame = s.frame := by
  simp only [saveFrame]; split_ifs <;> rfl
lemma saveFrame_time (s : LoopState d W) : (saveFrame C s).time = s.time := by
  simp only [saveFrame]; split_ifs <;> rfl

/-- The state at the head of the loop, and what is known about it. -/
structure Head (C : TimeConfig d) (base : List (Event W)) (s : LoopState d W) : Prop where
  room : C.minDt * (11 / 10) ≤ C.frameDt * (s.frame + 1) - s.time
  reached : C.frameDt * s.frame - C.minDt * (11 / 10) < s.time
  out : C.saveSim = true → ∃ (t : ℕ → ℝ) (w : ℕ → W),
    s.out = base ++ (List.range s.frame).flatMap (fun n => frameFiles C (n + 1) (t (n + 1)) (w (n + 1))) ∧
    ∀ n, 1 ≤ n → n ≤ s.frame → C.frameDt * n - C.minDt * (11 / 10) < t n ∧ t n ≤ C.frameDt * n

/-- The files at the end of the loop. -/
structure Done (C : TimeConfig d) (base : List (Event W)) (s : LoopState d W) : Prop where
  frame : s.frame = C.endFrame
  time : C.frameDt * s.frame - C.minDt * (11 / 10) < s.time ∧ s.time ≤ C.frameDt * s.frame
  out : C.saveSim = true → ∃ (t : ℕ → ℝ) (w : ℕ → W),
    s.out = base ++ (List.range C.endFrame).flatMap (fun n => frameFiles C (n + 1) (t (n + 1)) (w (n + 1))) ++
      frameFiles C C.endFrame (t C.endFrame) (w C.endFrame) ∧
    ∀ n, 1 ≤ n → n ≤ C.endFrame → C.frameDt * n - C.minDt * (11 / 10) < t n ∧ t n ≤ C.frameDt * n

lemma body_step {base : List (Event W)} {s : LoopState d W} (hm : 0 < C.minDt)
    (hfd : C.minDt * (11 / 10) ≤ C.frameDt) (hf : s.frame < C.endFrame) (hH : Head C base s) :
    (∀ s', loopBody C ph gf s = .cont s' → Head C base s' ∧ s'.frame < C.endFrame ∧
      s.time + C.minDt ≤ s'.time ∧ s'.time ≤ C.frameDt * (s.frame + 1) ∧ s.frame ≤ s'.frame ∧
      s'.frame ≤ s.frame + 1) ∧
    (∀ s', loopBody C ph gf s = .brk s' → Done C base s') := by
  have hfd0 : 0 ≤ C.frameDt := by linarith [mul_pos hm (by norm_num : (0:ℝ) < 11/10)]
  rcases loopBody_cases (C := C) (ph := ph) (gf := gf) s with h | ⟨_, _, _, _, _, h⟩ |
    ⟨dt, g, w, hu, hmin, ⟨speed, hsp⟩, hg, hst, h⟩
  · exact ⟨fun s' h' => (by rw [h] at h'; cases h'), fun s' h' => by rw [h] at h'; cases h'⟩
  · exact ⟨fun s' h' => (by rw [h] at h'; cases h'), fun s' h' => by rw [h] at h'; cases h'⟩
  have hb := chooseDt_bounds (C := C) (speed := speed) hm hfd0 hf hH.room
  rw [← hsp] at hb
  set s1 : LoopState d W := { s with w := w, gravity := g, time := s.time + dt, step := s.step + 1 } with hs1
  set s2 := endOfFrame C s1 with hs2
  have ht2 : s2.time = s.time + dt := endOfFrame_time s1
  have hfin : C.frameDt * (s.frame + 1) ≤ C.finalTime := by
    have := final_ge (C := C) (n := s.frame + 1) hfd0 hf
    push_cast at this; exact this
  by_cases hend : C.frameDt * (s.frame + 1) - (s.time + dt) < C.minDt * (11 / 10)
  · have hfr : s2.frame = s.frame + 1 := by
      rw [hs2, endOfFrame_frame, if_pos hend]
    have hs2' : s2 = saveFrame C { s1 with frame := s1.frame + 1 } := by
      rw [hs2, endOfFrame, if_pos hend]
    have hout : C.saveSim = true → ∃ (t : ℕ → ℝ) (w : ℕ → W),
        s2.out = base ++ (List.range s2.frame).flatMap
          (fun n => frameFiles C (n + 1) (t (n + 1)) (w (n + 1))) ∧
        (t s2.frame = s2.time ∧ w s2.frame = s2.w) ∧
        ∀ n, 1 ≤ n → n ≤ s2.frame → C.frameDt * n - C.minDt * (11 / 10) < t n ∧ t n ≤ C.frameDt * n := by
      intro hsave
      obtain ⟨t, w', ho, hti⟩ := hH.out hsave
      refine ⟨fun n => if n = s.frame + 1 then s2.time else t n,
        fun n => if n = s.frame + 1 then s2.w else w' n, ?_, ?_, ?_⟩
      · rw [hfr, List.range_succ, List.flatMap_append]
        have : (List.range s.frame).flatMap (fun n => frameFiles C (n + 1)
            (if n + 1 = s.frame + 1 then s2.time else t (n + 1))
            (if n + 1 = s.frame + 1 then s2.w else w' (n + 1))) =
            (List.range s.frame).flatMap (fun n => frameFiles C (n + 1) (t (n + 1)) (w' (n + 1))) := by
          refine List.flatMap_congr fun n hn => ?_
          have : ¬ (n + 1 = s.frame + 1) := by
            have := List.mem_range.mp hn; omega
          rw [if_neg this, if_neg this]
        rw [this, hs2', saveFrame_eq hsave]
        simp only [List.flatMap_cons, List.flatMap_nil, List.append_nil, if_true]
        show s.out ++ _ = _
        rw [ho, List.append_assoc]
      · simp only [hfr, if_true, and_self]
      · intro n h1 h2
        by_cases hn : n = s.frame + 1
        · simp only [hn, if_true]
          rw [ht2]; push_cast
          constructor <;> linarith
        · simp only [hn, if_false]
          exact hti n h1 (by omega)
    by_cases hlast : s.frame + 1 = C.endFrame
    · have hfinal : C.finalTime = C.frameDt * (s.frame + 1) := by
        rw [TimeConfig.finalTime, ← hlast]; push_cast; ring
      have hbrk : |C.finalTime - s2.time| < C.minDt * (11 / 10) ∨ C.finalTime < s2.time := by
        left; rw [hfinal, ht2, abs_of_nonneg (by linarith)]; exact hend
      simp only [← hs1, ← hs2] at h
      rw [if_pos hbrk] at h
      refine ⟨fun s' h' => (by rw [h] at h'; cases h'), fun s' h' => ?_⟩
      rw [h] at h'
      injection h' with h'
      subst h'
      refine ⟨?_, ?_, ?_⟩
      · rw [saveFrame_frame, hfr, hlast]
      · rw [saveFrame_frame, saveFrame_time, hfr, ht2]; push_cast
        constructor <;> linarith
      · intro hsave
        obtain ⟨t, w', ho, ⟨hti1, hwi1⟩, hti⟩ := hout hsave
        rw [hfr, hlast] at ho hti hti1 hwi1
        refine ⟨t, w', ?_, hti⟩
        rw [saveFrame_eq hsave, ← ho]
        simp only [hfr, hlast, hti1, hwi1]
    · have hnb : ¬ (|C.finalTime - s2.time| < C.minDt * (11 / 10) ∨ C.finalTime < s2.time) := by
        have h2 : C.frameDt * (s.frame + 2) ≤ C.finalTime := by
          have := final_ge (C := C) (n := s.frame + 2) hfd0 (by omega)
          push_cast at this; exact this
        rw [ht2]
        rintro (h3 | h3)
        · rw [abs_of_nonneg (by nlinarith)] at h3; nlinarith
        · nlinarith
      simp only [← hs1, ← hs2] at h
      rw [if_neg hnb] at h
      refine ⟨fun s' h' => ?_, fun s' h' => by rw [h] at h'; cases h'⟩
      rw [h] at h'
      injection h' with h'
      subst h'
      refine ⟨⟨?_, ?_, ?_⟩, ?_, ?_, ?_, ?_, ?_⟩
      · rw [hfr, ht2]; push_cast; nlinarith
      · rw [hfr, ht2]; push_cast; linarith
      · intro hsave
        obtain ⟨t, w', ho, _, hti⟩ := hout hsave
        exact ⟨t, w', ho, hti⟩
      · rw [hfr]; omega
      · rw [ht2]; linarith
      · rw [ht2]; linarith
      · omega
      · omega
  · have hs2' : s2 = s1 := by rw [hs2, endOfFrame, if_neg hend]
    have hnb : ¬ (|C.finalTime - s2.time| < C.minDt * (11 / 10) ∨ C.finalTime < s2.time) := by
      rw [ht2]
      rintro (h3 | h3)
      · rw [abs_of_nonneg (by linarith)] at h3; linarith
      · linarith
    simp only [← hs1, ← hs2] at h
    rw [if_neg hnb] at h
    refine ⟨fun s' h' => ?_, fun s' h' => by rw [h] at h'; cases h'⟩
    rw [h] at h'
    injection h' with h'
    subst h'
    rw [hs2']
    refine ⟨⟨?_, ?_, ?_⟩, ?_, ?_, ?_, ?_, ?_⟩
    · show _ ≤ C.frameDt * (s.frame + 1) - (s.time + dt); linarith
    · have := hH.reached
      show C.frameDt * s.frame - _ < s.time + dt; linarith
    · exact hH.out
    · exact hf
    · show _ ≤ s.time + dt; linarith
    · show s.time + dt ≤ _; linarith
    · exact le_rfl
    · show s.frame ≤ _; omega

lemma loop_done {base : List (Event W)} (hm : 0 < C.minDt) (hfd : C.minDt * (11 / 10) ≤ C.frameDt)
    (fuel : ℕ) : ∀ s : LoopState d W, s.frame < C.endFrame → Head C base s → ∀ r,
      loop C ph gf fuel s = .finished r → ∃ s', Done C base s' ∧ r = finish C s' := by
  induction fuel with
  | zero => intro s hf _ r hr; simp [loop, hf] at hr
  | succ n ih =>
    intro s hf hH r hr
    have hb := body_step (C := C) (ph := ph) (gf := gf) hm hfd hf hH
    simp only [loop, hf, if_true] at hr
    cases hbody : loopBody C ph gf s with
    | cont s' =>
      rw [hbody] at hr
      exact ih s' (hb.1 s' hbody).2.1 (hb.1 s' hbody).1 r hr
    | brk s' =>
      rw [hbody] at hr
      injection hr with hr
      exact ⟨s', hb.2 s' hbody, hr.symm⟩
    | fail s' => rw [hbody] at hr; cases hr
    | ub => rw [hbody] at hr; cases hr

/-- The state at the first test of the loop condition of `simulate`. -/
def startState (C : TimeConfig d) (s : LoopState d W) : LoopState d W :=
  let s := { s with time := 0, frame := 0 }
  if C.saveSim then { s with out := s.out ++ [.info, .particles 0 0 s.w] } else s

lemma simulate_eq {em : ElasticModel} {pm : PlasticModel} {i e : Bool} (h : accepted i em pm e = true)
    (fuel : ℕ) (s : LoopState d W) :
    simulate C ph i em pm e fuel s = loop C ph s.gravity fuel (startState C s) := by
  simp only [simulate, h, if_true, startState]

lemma start_frame (s : LoopState d W) : (startState C s).frame = 0 := by
  simp only [startState]; split_ifs <;> rfl
lemma start_time (s : LoopState d W) : (startState C s).time = 0 := by
  simp only [startState]; split_ifs <;> rfl
lemma start_gravity (s : LoopState d W) : (startState C s).gravity = s.gravity := by
  simp only [startState]; split_ifs <;> rfl

lemma start_head (hm : 0 < C.minDt) (hfd : C.minDt * (11 / 10) ≤ C.frameDt) (s : LoopState d W) :
    Head C (startState C s).out (startState C s) := by
  refine ⟨?_, ?_, fun _ => ⟨fun _ => 0, fun _ => s.w, ?_, ?_⟩⟩
  · rw [start_frame, start_time]; push_cast; linarith
  · rw [start_frame, start_time]; push_cast; linarith
  · rw [start_frame]; simp
  · intro n h1 h2; rw [start_frame] at h2; omega

/-- **C18, C19** A run that finishes has written, in this order: `info.txt`, the particle file of
frame 0, the files of frames `1 .. end_frame` (each at a time `t n` with
`n/fps - 1.1 min_dt < t n <= n/fps`), the files of the last frame a second time with the same
content, and the timing file. Hypothesis: a frame lasts at least `1.1 min_dt`. -/
theorem C19_files {em : ElasticModel} {pm : PlasticModel} {i e : Bool} (hm : 0 < C.minDt)
    (hfd : C.minDt * (11 / 10) ≤ 1 / C.fps) (hsave : C.saveSim = true) (hend : 1 ≤ C.endFrame)
    (fuel : ℕ) (s r : LoopState d W) (h : simulate C ph i em pm e fuel s = .finished r) :
    r.frame = C.endFrame ∧
    ∃ (t : ℕ → ℝ) (w : ℕ → W),
      r.out = s.out ++ [.info, .particles 0 0 s.w] ++
        (List.range C.endFrame).flatMap (fun n => frameFiles C (n + 1) (t (n + 1)) (w (n + 1))) ++
        frameFiles C C.endFrame (t C.endFrame) (w C.endFrame) ++ [.timing r.step] ∧
      ∀ n, 1 ≤ n → n ≤ C.endFrame → n / C.fps - C.minDt * (11 / 10) < t n ∧ t n ≤ n / C.fps := by
  by_cases ha : accepted i em pm e = true
  · rw [simulate_eq ha] at h
    obtain ⟨s', hd, hr⟩ := loop_done (base := (startState C s).out) hm hfd fuel (startState C s)
      (by rw [start_frame]; omega) (start_head hm hfd s) r h
    obtain ⟨t, w, ho, ht⟩ := hd.out hsave
    have hfin : finish C s' = { s' with out := s'.out ++ [.timing s'.step] } := by
      simp only [finish, hsave, if_true]
    rw [hr, hfin]
    refine ⟨hd.frame, t, w, ?_, fun n h1 h2 => ?_⟩
    · show s'.out ++ _ = _
      rw [ho]
      simp only [startState, hsave, if_true]
    · have := ht n h1 h2
      have e : C.frameDt * n = n / C.fps := by rw [TimeConfig.frameDt]; ring
      rw [e] at this; exact this
  · simp only [simulate, ha, Bool.false_eq_true, if_false] at h; cases h

/-- **C19** With `end_frame = 0` only `info.txt`, frame 0 and the timing file are written. -/
theorem C19_no_frames {em : ElasticModel} {pm : PlasticModel} {i e : Bool} (hsave : C.saveSim = true)
    (hend : C.endFrame = 0) (fuel : ℕ) (s : LoopState d W) (ha : accepted i em pm e = true) :
    ∃ r, simulate C ph i em pm e fuel s = .finished r ∧
      r.out = s.out ++ [.info, .particles 0 0 s.w, .timing s.step] := by
  rw [simulate_eq ha]
  have : ¬ ((startState C s).frame < C.endFrame) := by rw [hend]; omega
  refine ⟨finish C (startState C s), ?_, ?_⟩
  · unfold loop; rw [if_neg this]
  · simp [finish, startState, hsave]

/-- **C19** Without saving, nothing is written. -/
theorem C19_no_saving {em : ElasticModel} {pm : PlasticModel} {i e : Bool} (hsave : C.saveSim = false)
    (fuel : ℕ) (s : LoopState d W) (r : LoopState d W)
    (h : simulate C ph i em pm e fuel s = .finished r ∨ simulate C ph i em pm e fuel s = .failed r) :
    r.out = s.out := by
  have hsf : ∀ s : LoopState d W, saveFrame C s = s := fun s => by simp [saveFrame, hsave]
  have key : ∀ (n : ℕ) (g : Fin d → ℝ) (s r : LoopState d W),
      (loop C ph g n s = .finished r ∨ loop C ph g n s = .failed r) → r.out = s.out := by
    intro n
    induction n with
    | zero =>
      intro g s r h
      unfold loop at h
      split_ifs at h
      · simp at h
      · simp only [Result.finished.injEq, reduceCtorEq, or_false] at h
        rw [← h]; simp [finish, hsave]
    | succ n ih =>
      intro g s r h
      unfold loop at h
      split_ifs at h
      · rcases loopBody_cases (C := C) (ph := ph) (gf := g) s with hb | ⟨_, _, _, _, _, hb⟩ |
          ⟨dt, g', w, hu, hmin, _, hg, hst, hb⟩
        · rw [hb] at h; simp at h
        · rw [hb] at h; simp only [reduceCtorEq, Result.failed.injEq, false_or] at h
          rw [← h]
        · have hout : ∀ s : LoopState d W, (endOfFrame C s).out = s.out := fun s => by
            simp only [endOfFrame, hsf]; split_ifs <;> rfl
          simp only at hb
          rw [hb] at h
          split_ifs at h
          · simp only [Result.finished.injEq, reduceCtorEq, or_false] at h
            rw [← h, hsf]; simp only [finish, hsave, Bool.false_eq_true, if_false]
            rw [hout]
          · rw [ih _ _ _ h, hout]
      · simp only [Result.finished.injEq, reduceCtorEq, or_false] at h
        rw [← h]; simp [finish, hsave]
  by_cases ha : accepted i em pm e = true
  · rw [simulate_eq ha] at h
    rw [key _ _ _ _ h]
    simp [startState, hsave]
  · simp [simulate, ha] at h

/-- **C18** Time advances by at least `min_dt` per step and never passes the end of the current
frame, in every reachable state. -/
theorem C18_time (hm : 0 < C.minDt) (hfd : C.minDt * (11 / 10) ≤ 1 / C.fps) (hend : 1 ≤ C.endFrame)
    {s0 : LoopState d W} {k : ℕ} {s : LoopState d W}
    (hr : Reach C ph gf (startState C s0) k s) :
    s.frame < C.endFrame ∧ k * C.minDt ≤ s.time ∧
    s.frame / C.fps - C.minDt * (11 / 10) < s.time ∧
    s.time ≤ (s.frame + 1) / C.fps - C.minDt * (11 / 10) ∧
    ∀ s', loopBody C ph gf s = .cont s' →
      s.time + C.minDt ≤ s'.time ∧ s'.time ≤ (s.frame + 1) / C.fps ∧
        (s'.frame = s.frame ∨ s'.frame = s.frame + 1) := by
  have key : s.frame < C.endFrame ∧ k * C.minDt ≤ s.time ∧
      Head C (startState C s0).out s := by
    induction hr with
    | start => exact ⟨by rw [start_frame]; omega, by rw [start_time]; simp, start_head hm hfd s0⟩
    | next _ hf hb ih =>
      have := (body_step (C := C) (ph := ph) (gf := gf) hm hfd hf ih.2.2).1 _ hb
      refine ⟨this.2.1, ?_, this.1⟩
      push_cast; linarith [ih.2.1, this.2.2.1]
  obtain ⟨hf, hk, hH⟩ := key
  have e1 : C.frameDt * s.frame = s.frame / C.fps := by rw [TimeConfig.frameDt]; ring
  have e2 : C.frameDt * (s.frame + 1) = (s.frame + 1) / C.fps := by rw [TimeConfig.frameDt]; ring
  refine ⟨hf, hk, e1 ▸ hH.reached, by have := hH.room; rw [e2] at this; linarith, fun s' hb => ?_⟩
  have := (body_step (C := C) (ph := ph) (gf := gf) hm hfd hf hH).1 _ hb
  exact ⟨this.2.2.1, e2 ▸ this.2.2.2.1, by omega⟩

/-! ### C20 -/

lemma loop_outOfFuel (hm : 0 < C.minDt) (n : ℕ) : ∀ (s r : LoopState d W),
    loop C ph gf n s = .outOfFuel r → s.time + n * C.minDt ≤ r.time ∧
      (1 ≤ n → r.time ≤ C.finalTime - C.minDt * (11 / 10)) := by
  induction n with
  | zero =>
    intro s r h
    unfold loop at h
    split_ifs at h
    injection h with h
    subst h; simp
  | succ n ih =>
    intro s r h
    unfold loop at h
    split_ifs at h
    rcases loopBody_cases (C := C) (ph := ph) (gf := gf) s with hb | ⟨_, _, _, _, _, hb⟩ |
      ⟨dt, g', w, hu, hmin, _, hg, hst, hb⟩
    · rw [hb] at h; cases h
    · rw [hb] at h; cases h
    simp only at hb
    rw [hb] at h
    split_ifs at h with hc
    have := ih _ _ h
    rw [endOfFrame_time] at this hc
    push Not at hc
    have hab : C.minDt * (11 / 10) ≤ C.finalTime - (s.time + dt) := by
      rw [← abs_of_nonneg (a := C.finalTime - (s.time + dt)) (by linarith [hc.2])]; exact hc.1
    have h1 := this.1
    refine ⟨by push_cast; simp only at h1; linarith, fun _ => ?_⟩
    rcases Nat.eq_zero_or_pos n with h0 | h0
    · subst h0
      change loop C ph gf 0 _ = _ at h
      unfold loop at h
      split_ifs at h
      injection h with h
      rw [← h, endOfFrame_time]; show s.time + dt ≤ _; linarith
    · exact this.2 h0

/-- **C20** For every behaviour of the physics the loop ends within `n` iterations, for every
`n ≥ 1` with `n * min_dt ≥ final_time`. -/
theorem C20_terminates {em : ElasticModel} {pm : PlasticModel} {i e : Bool} (hm : 0 < C.minDt)
    (n : ℕ) (hn : 1 ≤ n) (hN : C.endFrame / C.fps ≤ n * C.minDt) (s r : LoopState d W) :
    simulate C ph i em pm e n s ≠ .outOfFuel r := by
  intro h
  by_cases ha : accepted i em pm e = true
  · rw [simulate_eq ha] at h
    obtain ⟨h1, h2⟩ := loop_outOfFuel hm n _ _ h
    have h2 := h2 hn
    rw [start_time] at h1
    have e : C.finalTime = C.endFrame / C.fps := by
      rw [TimeConfig.finalTime, TimeConfig.frameDt]; ring
    rw [e] at h2
    linarith
  · simp [simulate, ha] at h

lemma loop_more (n : ℕ) : ∀ (s : LoopState d W), (∀ r, loop C ph gf n s ≠ .outOfFuel r) →
    ∀ k, loop C ph gf (n + k) s = loop C ph gf n s := by
  induction n with
  | zero =>
    intro s h k
    by_cases hf : s.frame < C.endFrame
    · exfalso; apply h s; unfold loop; rw [if_pos hf]
    · unfold loop; rw [if_neg hf, if_neg hf]
  | succ n ih =>
    intro s h k
    by_cases hf : s.frame < C.endFrame
    · rw [show n + 1 + k = (n + k) + 1 by omega]
      unfold loop at h ⊢
      rw [if_pos hf, if_pos hf]
      cases hb : loopBody C ph gf s with
      | cont s' =>
        simp only []
        apply ih
        intro r hr
        apply h r
        rw [if_pos hf, hb]; exact hr
      | brk s' => rfl
      | fail s' => rfl
      | ub => rfl
    · unfold loop; rw [if_neg hf, if_neg hf]

/-- **C20** The result does not depend on the iteration limit of the model once it is large enough:
the `while` loop itself has this result. -/
theorem C20_limit_irrelevant {em : ElasticModel} {pm : PlasticModel} {i e : Bool} (hm : 0 < C.minDt)
    (n : ℕ) (hn : 1 ≤ n) (hN : C.endFrame / C.fps ≤ n * C.minDt) (s : LoopState d W) (k : ℕ) :
    simulate C ph i em pm e (n + k) s = simulate C ph i em pm e n s := by
  by_cases ha : accepted i em pm e = true
  · rw [simulate_eq ha, simulate_eq ha]
    refine loop_more n _ (fun r hr => ?_) k
    exact C20_terminates (em := em) (pm := pm) (i := i) (e := e) hm n hn hN s r
      (by rw [simulate_eq ha]; exact hr)
  · simp [simulate, ha]

/-! ### C21 -/

lemma reach_loop {s0 : LoopState d W} {k : ℕ} {s : LoopState d W} (hr : Reach C ph gf s0 k s) (n : ℕ) :
    loop C ph gf (k + n) s0 = loop C ph gf n s := by
  induction hr generalizing n with
  | start => simp
  | @next k s s' h1 hf hb ih =>
    rw [show k + 1 + n = k + (n + 1) by omega, ih]
    conv_lhs => unfold loop
    rw [if_pos hf, hb]

/-- **C21** If the physics of some step raises the error flag, the run ends with that step: the
output is exactly what was written before the step. -/
theorem C21_error_stops {em : ElasticModel} {pm : PlasticModel} {i e : Bool}
    (ha : accepted i em pm e = true) {s0 s : LoopState d W} {k : ℕ}
    (hr : Reach C ph s0.gravity (startState C s0) k s) (hf : s.frame < C.endFrame) {dt : ℝ}
    {g : Fin d → ℝ} {w : W}
    (hu : updateDt C s0.gravity s.frame s.time (ph.velocities s.w) s.gravity = some (dt, g))
    (hst : ph.step s.w dt g s.time s.step = some (w, true)) (n : ℕ) :
    simulate C ph i em pm e (k + n + 1) s0 = .failed { s with w := w, gravity := g } := by
  rw [simulate_eq ha, show k + n + 1 = k + (n + 1) by omega, reach_loop hr]
  unfold loop
  rw [if_pos hf]
  simp only [loopBody, hu, hst]

/-- Every event already written stays, and nothing but particle and grid files is written before
the end of the loop. -/
theorem C21_output_kept {s0 s : LoopState d W} {k : ℕ} (hr : Reach C ph gf s0 k s) :
    ∃ l, s.out = s0.out ++ l ∧ ∀ ev ∈ l, ∀ j, ev ≠ .timing j := by
  induction hr with
  | start => exact ⟨[], by simp, by simp⟩
  | @next k s s' h1 hf hb ih =>
    obtain ⟨l, hl, hl2⟩ := ih
    rcases loopBody_cases (C := C) (ph := ph) (gf := gf) s with h | ⟨_, _, _, _, _, h⟩ |
      ⟨dt, g', w, hu, hmin, _, hg, hst, h⟩
    · rw [h] at hb; cases hb
    · rw [h] at hb; cases hb
    simp only at h
    rw [h] at hb
    split_ifs at hb
    injection hb with hb
    rw [← hb]
    simp only [endOfFrame]
    split_ifs
    · by_cases hs : C.saveSim = true
      · rw [saveFrame_eq hs]
        refine ⟨l ++ frameFiles C (s.frame + 1) (s.time + dt) w, ?_, ?_⟩
        · show s.out ++ _ = _; rw [hl, List.append_assoc]
        · intro ev hev j
          rcases List.mem_append.mp hev with hev | hev
          · exact hl2 ev hev j
          · simp only [frameFiles] at hev
            split_ifs at hev <;> simp at hev
            · rcases hev with rfl | rfl <;> simp
            · rw [hev]; simp
      · refine ⟨l, ?_, hl2⟩
        simp only [saveFrame, hs, Bool.false_eq_true, if_false]; exact hl
    · exact ⟨l, hl, hl2⟩

/-- **C21** Conversely a run is reported as failed only if some step raised the error flag, and then
no timing file was written. -/
theorem C21_failed_iff {em : ElasticModel} {pm : PlasticModel} {i e : Bool} (fuel : ℕ)
    (s0 r : LoopState d W) (h : simulate C ph i em pm e fuel s0 = .failed r) :
    ∃ k s dt g w, Reach C ph s0.gravity (startState C s0) k s ∧
      updateDt C s0.gravity s.frame s.time (ph.velocities s.w) s.gravity = some (dt, g) ∧
      ph.step s.w dt g s.time s.step = some (w, true) ∧ r.out = s.out := by
  by_cases ha : accepted i em pm e = true
  · rw [simulate_eq ha] at h
    have key : ∀ (n k : ℕ) (s : LoopState d W), Reach C ph s0.gravity (startState C s0) k s →
        loop C ph s0.gravity n s = .failed r → ∃ k s dt g w,
          Reach C ph s0.gravity (startState C s0) k s ∧
          updateDt C s0.gravity s.frame s.time (ph.velocities s.w) s.gravity = some (dt, g) ∧
          ph.step s.w dt g s.time s.step = some (w, true) ∧ r.out = s.out := by
      intro n
      induction n with
      | zero => intro k s _ h; unfold loop at h; split_ifs at h
      | succ n ih =>
        intro k s hr h
        unfold loop at h
        split_ifs at h with hf
        rcases loopBody_cases (C := C) (ph := ph) (gf := s0.gravity) s with hb |
          ⟨dt, g, w, h1, h2, hb⟩ | ⟨dt, g', w, hu, hmin, _, hg, hst, hb⟩
        · rw [hb] at h; cases h
        · rw [hb] at h; injection h with h
          exact ⟨k, s, dt, g, w, hr, h1, h2, by rw [← h]⟩
        · simp only at hb
          rw [hb] at h
          split_ifs at h with hc
          refine ih (k + 1) _ (.next hr hf ?_) h
          rw [hb, if_neg hc]
    exact key fuel 0 _ .start h
  · simp [simulate, ha] at h

/-! ### C22 -/

/-- **C22** `simulate` refuses (and then changes and writes nothing) exactly if the simulation was
not initialised, or a plastic model is combined with another than Hencky's elastic model, or the
initialisation failed. -/
theorem C22_refused (i e : Bool) (em : ElasticModel) (pm : PlasticModel) (fuel : ℕ)
    (s : LoopState d W) :
    (simulate C ph i em pm e fuel s = .refused s ↔
      i = false ∨ (em ≠ .hencky ∧ pm ≠ .noPlasticity) ∨ e = true) ∧
    ∀ r, simulate C ph i em pm e fuel s = .refused r → r = s := by
  have hl : ∀ (n : ℕ) (g : Fin d → ℝ) (s r : LoopState d W), loop C ph g n s ≠ .refused r := by
    intro n
    induction n with
    | zero => intro g s r h; unfold loop at h; split_ifs at h
    | succ n ih =>
      intro g s r h
      unfold loop at h
      split_ifs at h
      cases hb : loopBody C ph g s with
      | cont s' => rw [hb] at h; exact ih _ _ _ h
      | brk s' => rw [hb] at h; cases h
      | fail s' => rw [hb] at h; cases h
      | ub => rw [hb] at h; cases h
  have hacc : accepted i em pm e = true ↔
      ¬ (i = false ∨ (em ≠ .hencky ∧ pm ≠ .noPlasticity) ∨ e = true) := by
    cases i <;> cases e <;> cases em <;> cases pm <;> simp [accepted]
  by_cases ha : accepted i em pm e = true
  · rw [simulate_eq ha]
    refine ⟨⟨fun h => absurd h (hl _ _ _ _), fun h => absurd h (hacc.mp ha)⟩,
      fun r h => absurd h (hl _ _ _ _)⟩
  · have : simulate C ph i em pm e fuel s = .refused s := by simp [simulate, ha]
    rw [this]
    refine ⟨⟨fun _ => by_contra fun h => ha (hacc.mpr h), fun _ => rfl⟩, fun r h => ?_⟩
    injection h with h
    exact h.symm

/-! ### C23 -/

/-- **C23** Gravity handed to the physics in a reachable state: with `gravity_special` the linear
ramp, without it the constant gravity set by the user. -/
theorem C23_gravity {s0 s : LoopState d W} {k : ℕ}
    (hr : Reach C ph s0.gravity (startState C s0) k s) {dt : ℝ} {g : Fin d → ℝ}
    (hu : updateDt C s0.gravity s.frame s.time (ph.velocities s.w) s.gravity = some (dt, g)) :
    (C.gravitySpecial = false → g = s0.gravity) ∧
    (C.gravitySpecial = true → s.time < C.gravityTime → g = (s.time / C.gravityTime) • s0.gravity) ∧
    (C.gravitySpecial = true → C.gravityTime ≤ s.time → g = s0.gravity) := by
  have hinv : C.gravitySpecial = false → s.gravity = s0.gravity := by
    intro hs
    clear hu
    induction hr with
    | start => exact start_gravity _
    | @next k s s' h1 hf hb ih =>
      rcases loopBody_cases (C := C) (ph := ph) (gf := s0.gravity) s with h | ⟨_, _, _, _, _, h⟩ |
        ⟨dt, g', w, hu, hmin, _, hg, hst, h⟩
      · rw [h] at hb; cases hb
      · rw [h] at hb; cases hb
      simp only at h
      rw [h] at hb
      split_ifs at hb
      injection hb with hb
      rw [← hb, endOfFrame_gravity]
      show g' = _
      rw [hg]; simp only [rampGravity, hs, Bool.false_eq_true, if_false]; exact ih
  simp only [updateDt, Option.map_eq_some_iff, Prod.mk.injEq] at hu
  obtain ⟨_, _, _, hg⟩ := hu
  refine ⟨fun hs => ?_, fun hs ht => ?_, fun hs ht => ?_⟩
  · rw [← hg, ← hinv hs]; simp [rampGravity, hs]
  · rw [← hg]; simp only [rampGravity, hs, if_true, ht, smul_smul]; congr 1; ring
  · rw [← hg]; simp only [rampGravity, hs, if_true, not_lt.mpr ht, if_false]

/-- **C23** The ramp is a fraction of the final gravity that grows with time, from 0 to 1. -/
theorem C23_monotone (C : TimeConfig d) (gf g g' : Fin d → ℝ) {t1 t2 : ℝ} (h0 : 0 ≤ t1) (h12 : t1 ≤ t2)
    (hs : C.gravitySpecial = true) :
    ∃ c1 c2 : ℝ, rampGravity C gf g t1 = c1 • gf ∧ rampGravity C gf g' t2 = c2 • gf ∧
      0 ≤ c1 ∧ c1 ≤ c2 ∧ c2 ≤ 1 ∧ (t1 = 0 → 0 < C.gravityTime → c1 = 0) := by
  refine ⟨if t1 < C.gravityTime then t1 / C.gravityTime else 1,
    if t2 < C.gravityTime then t2 / C.gravityTime else 1, ?_, ?_, ?_, ?_, ?_, ?_⟩
  · simp only [rampGravity, hs, if_true]
    split_ifs
    · rw [smul_smul]; congr 1; ring
    · rw [one_smul]
  · simp only [rampGravity, hs, if_true]
    split_ifs
    · rw [smul_smul]; congr 1; ring
    · rw [one_smul]
  · split_ifs with h
    · exact div_nonneg h0 (h0.trans h.le)
    · exact zero_le_one
  · split_ifs with h h' h'
    · exact div_le_div_of_nonneg_right h12 (h0.trans h.le)
    · exact (div_le_one (lt_of_le_of_lt h0 h)).mpr h.le
    · exact absurd (lt_of_le_of_lt h12 h') h
    · exact le_rfl
  · split_ifs with h
    · exact (div_le_one (lt_of_le_of_lt (h0.trans h12) h)).mpr h.le
    · exact le_rfl
  · rintro rfl hg; rw [if_pos hg, zero_div]

end

/-! ### concrete runs -/

/-- Particles at rest that stay at rest. -/
def rest : Physics 2 Unit := ⟨fun _ => [0], fun _ _ _ _ _ => some ((), false)⟩
/-- Elastic limit 1 s, `frames` frames of one second, minimal step `m`. -/
def exConfig (m : ℝ) (frames : ℕ) : TimeConfig 2 where
  endFrame := frames
  saveSim := true
  saveGrid := true
  gravitySpecial := true
  gravityTime := 10
  minDt := m
  fps := 1
  cfl := 1/2
  cflElastic := 1
  rho := 1
  E := 1
  dx := 1
def exStart : LoopState 2 Unit := ⟨(), 0, 0, 0, ![0, -10], []⟩

lemma rest_speed : maxSpeed (rest.velocities ()) = some 0 := by
  simp [maxSpeed, maxElement, rest]

lemma ex_dtMax (m : ℝ) (n : ℕ) : (exConfig m n).dtMax = 1 := by
  simp [TimeConfig.dtMax, TimeConfig.waveSpeed, exConfig]
lemma ex_frameDt (m : ℝ) (n : ℕ) : (exConfig m n).frameDt = 1 := by
  simp [TimeConfig.frameDt, exConfig]
lemma ex_final (m : ℝ) (n : ℕ) : (exConfig m n).finalTime = n := by
  simp [TimeConfig.finalTime, ex_frameDt]; simp [exConfig]

lemma ex_dt {m : ℝ} (hm : m ≤ 1) {n : ℕ} (hn : 1 ≤ n) : chooseDt (exConfig m n) 0 0 0 = 1 := by
  have h : ¬ (|(0 : ℝ)| > 1 / 10 ^ 10) := by simp
  have hn' : (1 : ℝ) ≤ n := by exact_mod_cast hn
  simp only [chooseDt, h, if_false, ex_dtMax, ex_frameDt, ex_final]
  rw [show (exConfig m n).minDt = m from rfl]
  simp [hn', hm]

/-- The hypotheses of `C17_dt` are met by a fast and a slow particle. -/
example : ∃ dt g, updateDt (exConfig (1/10) 3) ![0, -10] 0 0 [![3, 4], ![0, 1/10]] 0 = some (dt, g) ∧
    dt ≤ 1/10 := by
  obtain ⟨⟨dt, g⟩, h⟩ := Option.isSome_iff_exists.mp
    (C17_defined (exConfig (1/10) 3) ![0, -10] 0 0 0 [![3, 4], ![0, 1/10]] (by simp))
  have := C17_dt (exConfig (1/10) 3) (by norm_num [exConfig]) h
  refine ⟨dt, g, h, ?_⟩
  by_contra hc
  have h1 := (this.2 (by simp only [exConfig]; linarith)).2.1 ![3, 4] (by simp)
  have h2 : √((![3, 4] : Fin 2 → ℝ) ⬝ᵥ ![3, 4]) = 5 := by
    rw [show (![3, 4] : Fin 2 → ℝ) ⬝ᵥ ![3, 4] = 5 ^ 2 by simp [dotProduct, Fin.sum_univ_two]; norm_num]
    exact Real.sqrt_sq (by norm_num)
  rw [h2] at h1
  have := h1 (by norm_num)
  simp only [exConfig] at this
  linarith

/-- One step of length 1 takes the example to the end of frame 1. -/
lemma ex_body {m : ℝ} (h0 : 0 < m) (hm : m ≤ 1) {n : ℕ} (hn : 1 ≤ n)
    (hbrk : (n : ℝ) - 1 < m * (11 / 10)) : ∃ s', loopBody (exConfig m n) rest ![0, -10]
      (startState (exConfig m n) exStart) = .brk s' ∧ s'.frame = 1 ∧ s'.time = 1 ∧ s'.gravity = 0 := by
  have hn' : (1 : ℝ) ≤ n := by exact_mod_cast hn
  set s := startState (exConfig m n) exStart with hs
  have hu : updateDt (exConfig m n) ![0, -10] s.frame s.time (rest.velocities s.w) s.gravity =
      some (1, 0) := by
    have e1 : s.frame = 0 := start_frame _
    have e2 : s.time = 0 := start_time _
    simp only [updateDt, e1, e2]
    rw [show s.w = () from rfl, rest_speed]
    simp only [Option.map_some, ex_dt hm hn, Option.some.injEq, Prod.mk.injEq, true_and]
    simp [rampGravity, exConfig]
  rcases loopBody_cases (C := exConfig m n) (ph := rest) (gf := ![0, -10]) s with h | ⟨dt, g, w, h1, h2, h⟩ |
    ⟨dt, g, w, h1, hmin, _, hg, hst, h⟩
  · simp only [loopBody, hu] at h
    simp only [rest] at h
    split_ifs at h
  · simp [rest] at h2
  · rw [hu] at h1
    simp only [Option.some.injEq, Prod.mk.injEq] at h1
    obtain ⟨rfl, rfl⟩ := h1
    simp only at h
    set s1 : LoopState 2 Unit := { s with w := w, gravity := 0, time := s.time + 1, step := s.step + 1 }
    have hs1 : s1.time = 1 := by show s.time + 1 = 1; rw [hs, start_time, zero_add]
    have hf1 : s1.frame = 0 := start_frame _
    have hend : (exConfig m n).frameDt * (s1.frame + 1) - s1.time < (exConfig m n).minDt * (11 / 10) := by
      rw [ex_frameDt, hs1, hf1]; simp only [exConfig]; push_cast; linarith
    rw [if_pos] at h
    · refine ⟨_, h, ?_, ?_, ?_⟩
      · rw [saveFrame_frame, endOfFrame_frame, if_pos hend, hf1]
      · rw [saveFrame_time, endOfFrame_time, hs1]
      · have : ∀ s : LoopState 2 Unit, (saveFrame (exConfig m n) s).gravity = s.gravity := by
          intro s; simp only [saveFrame]; split_ifs <;> rfl
        rw [this, endOfFrame_gravity]
    · left
      rw [endOfFrame_time, hs1, ex_final, abs_of_nonneg (by linarith)]
      exact hbrk

/-- A run with one frame: it finishes, so `C19_files` applies. -/
theorem ex_run {m : ℝ} (h0 : 0 < m) (hm : m ≤ 1) {n : ℕ} (hn : 1 ≤ n)
    (hbrk : (n : ℝ) - 1 < m * (11 / 10)) : ∃ r, simulate (exConfig m n) rest true .hencky .noPlasticity
      false 1 exStart = .finished r ∧ r.frame = 1 ∧ r.time = 1 ∧ r.gravity = 0 := by
  obtain ⟨s', hb, hf, ht, hg⟩ := ex_body h0 hm hn hbrk
  refine ⟨finish (exConfig m n) s', ?_, ?_, ?_, ?_⟩
  · rw [simulate_eq rfl]
    unfold loop
    rw [if_pos (by rw [start_frame]; exact hn)]
    simp only [show exStart.gravity = ![0, -10] from rfl, hb]
  · simp only [finish]; split_ifs <;> exact hf
  · simp only [finish]; split_ifs <;> exact ht
  · simp only [finish]; split_ifs <;> exact hg

example : ∃ r, simulate (exConfig (1/10) 1) rest true .hencky .noPlasticity false 1 exStart = .finished r ∧
    ∃ (t : ℕ → ℝ) (w : ℕ → Unit), r.out = [.info, .particles 0 0 (), .particles 1 (t 1) (w 1),
      .grid 1 (t 1) (w 1), .particles 1 (t 1) (w 1), .grid 1 (t 1) (w 1), .timing r.step] := by
  obtain ⟨r, hr, -⟩ := ex_run (m := 1/10) (by norm_num) (by norm_num) (le_refl 1) (by norm_num)
  obtain ⟨-, t, w, ho, -⟩ := C19_files (C := exConfig (1/10) 1) (by norm_num [exConfig])
    (by norm_num [exConfig]) rfl (le_refl 1) 1 exStart r hr
  exact ⟨r, hr, t, w, by rw [ho]; simp [frameFiles, exConfig, exStart, List.range_succ]⟩

/-- **C18** The hypothesis on the frame length is needed: with `min_dt` equal to the frame length a
run of two frames ends after the first and never writes the second. -/
theorem C18_short_frames_lost : ∃ r, simulate (exConfig 1 2) rest true .hencky .noPlasticity false 1
    exStart = .finished r ∧ r.frame = 1 ∧ (exConfig 1 2).endFrame = 2 ∧
      (exConfig 1 2).minDt = 1 / (exConfig 1 2).fps := by
  obtain ⟨r, hr, hf, -⟩ := ex_run (m := 1) (by norm_num) le_rfl (n := 2) (by norm_num) (by norm_num)
  exact ⟨r, hr, hf, rfl, by norm_num [exConfig]⟩

/-- **C23** does not extend to a second call of `simulate` on the same object: if the first run ends
before `gravity_time`, it leaves the reduced gravity behind (here zero), and the second run takes it
as final gravity. -/
theorem C23_second_run_false : ∃ (C : TimeConfig 2) (ph : Physics 2 Unit) (s r : LoopState 2 Unit),
    C.gravitySpecial = true ∧ s.gravity = ![0, -10] ∧
    simulate C ph true .hencky .noPlasticity false 1 s = .finished r ∧ r.gravity = 0 ∧
    ∀ frame time vs dt g, updateDt C r.gravity frame time vs 0 = some (dt, g) → g = 0 := by
  obtain ⟨r, hr, -, -, hg⟩ := ex_run (m := 1/10) (by norm_num) (by norm_num) (le_refl 1) (by norm_num)
  refine ⟨exConfig (1/10) 1, rest, exStart, r, rfl, rfl, hr, hg, fun frame time vs dt g h => ?_⟩
  simp only [updateDt, Option.map_eq_some_iff, Prod.mk.injEq] at h
  obtain ⟨_, _, _, h⟩ := h
  rw [← h, hg]
  simp [rampGravity]

/-- `C20`: the run of the example ends for every physics. -/
example (ph : Physics 2 Unit) (r : LoopState 2 Unit) :
    simulate (exConfig (1/10) 3) ph true .hencky .noPlasticity false 30 exStart ≠ .outOfFuel r :=
  C20_terminates (by norm_num [exConfig]) 30 (by norm_num) (by norm_num [exConfig]) _ _

/-- `C21`: physics that fails in the first step. -/
example : simulate (exConfig (1/10) 3) (⟨fun _ => [0], fun _ _ _ _ _ => some ((), true)⟩ : Physics 2 Unit)
    true .hencky .noPlasticity false 1 exStart =
    .failed { startState (exConfig (1/10) 3) exStart with gravity := 0 } := by
  refine C21_error_stops (k := 0) (n := 0) (s := startState (exConfig (1/10) 3) exStart) rfl .start
    (by rw [start_frame]; simp [exConfig]) (dt := 1) (g := 0) (w := ()) ?_ rfl
  simp only [updateDt, start_frame, start_time]
  have : maxSpeed [(0 : Fin 2 → ℝ)] = some 0 := by simp [maxSpeed, maxElement]
  rw [this]
  simp only [Option.map_some, ex_dt (m := 1/10) (n := 3) (by norm_num) (by norm_num), Option.some.injEq,
    Prod.mk.injEq, true_and]
  simp [rampGravity, exConfig]

/-- `C23`: half of the final gravity at half of `gravity_time`. -/
example : rampGravity (exConfig (1/10) 3) ![0, -10] 0 5 = ![0, -5] := by
  have h : (5 : ℝ) < 10 := by norm_num
  simp only [rampGravity, exConfig, if_true, h]
  ext a; fin_cases a <;> norm_num

end
end Verif.Props
