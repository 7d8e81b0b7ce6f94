import Verif.Lemmas.Round
import Verif.Props.Time

/-!
# C98: rounding does not derail the time loop

The loop of `simulate` with every operation on times rounded. `Reach`, `Head`, ... of Props/Time are not used: the
invariants here carry the rounding errors.
-/

set_option linter.unusedSectionVars false
set_option linter.unusedVariables false
set_option linter.unusedSimpArgs false

namespace Verif.Props
open Verif
variable {d : ℕ} {W : Type*} {C : TimeConfig d} {u : ℝ} {fl : ℝ → ℝ} {ph : PhysicsFl d W}

/-- The tolerance `1.1 min_dt` and twelve rounding errors of the final time fit into one frame. -/
structure FlOk (C : TimeConfig d) (u : ℝ) (fl : ℝ → ℝ) : Prop where
  rnd : Rounding u fl
  minDt : 0 < C.minDt
  fps : 0 < C.fps
  frame : C.minDt * (12 / 10) + 12 * (u * (C.endFrame / C.fps)) ≤ 1 / C.fps

/-- The ends of frames are where they should be, up to rounding errors. -/
lemma FlOk.frameEnd (h : FlOk C u fl) {n : ℕ} (hn : n ≤ C.endFrame) :
    n / C.fps - 3 * (u * (C.endFrame / C.fps)) ≤ C.frameEndFl fl n ∧
    C.frameEndFl fl n ≤ n / C.fps + 3 * (u * (C.endFrame / C.fps)) ∧ 0 ≤ C.frameEndFl fl n := by
  have hu := h.rnd.nonneg
  have hu1 := h.rnd.small
  have hD : 0 < 1 / C.fps := one_div_pos.mpr h.fps
  have e1 : (n : ℝ) / C.fps = 1 / C.fps * n := by ring
  have e2 : (C.endFrame : ℝ) / C.fps = 1 / C.fps * C.endFrame := by ring
  rw [e1, e2]
  set D := 1 / C.fps with hDdef
  have hn0 : (0 : ℝ) ≤ n := Nat.cast_nonneg n
  have hnN : (n : ℝ) ≤ C.endFrame := by exact_mod_cast hn
  have f1 : D - u * D ≤ C.frameDtFl fl := h.rnd.ge hD.le
  have f2 : C.frameDtFl fl ≤ D + u * D := h.rnd.le hD.le
  have f0 : 0 ≤ C.frameDtFl fl := h.rnd.nonneg' hD.le
  have g1 : C.frameDtFl fl * n - u * (C.frameDtFl fl * n) ≤ C.frameEndFl fl n := h.rnd.ge (by positivity)
  have g2 : C.frameEndFl fl n ≤ C.frameDtFl fl * n + u * (C.frameDtFl fl * n) := h.rnd.le (by positivity)
  have g0 : 0 ≤ C.frameEndFl fl n := h.rnd.nonneg' (by positivity)
  have a1 : (D - u * D) * n ≤ C.frameDtFl fl * n := mul_le_mul_of_nonneg_right f1 hn0
  have a2 : C.frameDtFl fl * n ≤ (D + u * D) * n := mul_le_mul_of_nonneg_right f2 hn0
  have hnD : D * n ≤ D * C.endFrame := mul_le_mul_of_nonneg_left hnN hD.le
  have hunD : u * (D * n) ≤ u * (D * C.endFrame) := mul_le_mul_of_nonneg_left hnD hu
  have hDn : 0 ≤ D * n := by positivity
  have huDn : 0 ≤ u * (D * n) := by positivity
  have a3 : u * (C.frameDtFl fl * n) ≤ u * ((D + u * D) * n) := mul_le_mul_of_nonneg_left a2 hu
  have a4 : u * ((D + u * D) * n) ≤ 2 * (u * (D * n)) := by nlinarith
  refine ⟨?_, ?_, g0⟩ <;> nlinarith

lemma finalTimeFl_eq (C : TimeConfig d) (fl : ℝ → ℝ) : C.finalTimeFl fl = C.frameEndFl fl C.endFrame := by
  rw [TimeConfig.finalTimeFl, TimeConfig.frameEndFl, mul_comm]

lemma FlOk.tol (h : FlOk C u fl) : C.minDt * (109 / 100) ≤ C.tolFl fl ∧ C.tolFl fl ≤ C.minDt * (111 / 100) := by
  have hu := h.rnd.nonneg
  have hu1 := h.rnd.small
  have hm := h.minDt
  have f1 := h.rnd.ge (x := 11 / 10) (by norm_num)
  have f2 := h.rnd.le (x := 11 / 10) (by norm_num)
  have f0 : 0 ≤ fl (11 / 10) := h.rnd.nonneg' (by norm_num)
  have g1 := h.rnd.ge (x := C.minDt * fl (11 / 10)) (by positivity)
  have g2 := h.rnd.le (x := C.minDt * fl (11 / 10)) (by positivity)
  have b1 : 1098 / 1000 ≤ fl (11 / 10) := by linarith
  have b2 : fl (11 / 10) ≤ 1102 / 1000 := by linarith
  have c1 : C.minDt * (1098 / 1000) ≤ C.minDt * fl (11 / 10) := mul_le_mul_of_nonneg_left b1 hm.le
  have c2 : C.minDt * fl (11 / 10) ≤ C.minDt * (1102 / 1000) := mul_le_mul_of_nonneg_left b2 hm.le
  simp only [TimeConfig.tolFl]
  constructor <;> nlinarith

/-- If the rounded distance is below the tolerance then so, nearly, is the distance. -/
lemma FlOk.lt_of_tol (h : FlOk C u fl) {x : ℝ} (hx : fl x < C.tolFl fl) : x < C.minDt * (112 / 100) := by
  by_contra hc
  rw [not_lt] at hc
  have hm := h.minDt
  have h1 := h.rnd.ge (x := x) (by linarith)
  have := h.tol.2
  nlinarith [h.rnd.small]

/-- If a distance is clearly above the tolerance then so is the rounded distance. -/
lemma FlOk.tol_le_of (h : FlOk C u fl) {x : ℝ} (hx : C.minDt * (12 / 10) ≤ x) : C.tolFl fl ≤ fl x := by
  have hm := h.minDt
  have h1 := h.rnd.ge (x := x) (by linarith)
  have := h.tol.2
  nlinarith [h.rnd.small]

lemma FlOk.pos_of_tol (h : FlOk C u fl) {x : ℝ} (hx : C.tolFl fl ≤ fl x) : 0 < x :=
  h.rnd.pos_of (lt_of_lt_of_le (by linarith [h.tol.1, h.minDt]) hx)

/-- One rounded step does not pass the end of the frame by more than four rounding errors. -/
lemma FlOk.step (h : FlOk C u fl) {frame : ℕ} {time speed : ℝ} (hf : frame < C.endFrame) (ht : 0 ≤ time)
    (hroom : C.tolFl fl ≤ fl (C.frameEndFl fl (frame + 1) - time)) :
    C.minDt ≤ chooseDtFl C fl frame time speed ∧
    chooseDtFl C fl frame time speed ≤ fl (C.frameEndFl fl (frame + 1) - time) ∧
    0 ≤ fl (time + chooseDtFl C fl frame time speed) ∧
    fl (time + chooseDtFl C fl frame time speed) ≤ C.frameEndFl fl (frame + 1) + 4 * (u * (C.endFrame / C.fps)) := by
  have hu := h.rnd.nonneg
  have hu1 := h.rnd.small
  have hm := h.minDt
  have hp := h.pos_of_tol hroom
  have h1 : C.minDt ≤ chooseDtFl C fl frame time speed := le_max_right _ _
  have h2 : chooseDtFl C fl frame time speed ≤ fl (C.frameEndFl fl (frame + 1) - time) :=
    max_le ((min_le_left _ _).trans (min_le_right _ _)) (by linarith [h.tol.1])
  refine ⟨h1, h2, h.rnd.nonneg' (by linarith), ?_⟩
  have h3 := h.rnd.le hp.le
  have h4 := h.rnd.le (x := time + chooseDtFl C fl frame time speed) (by linarith)
  obtain ⟨-, hF, -⟩ := h.frameEnd (n := frame + 1) hf
  set F := C.frameEndFl fl (frame + 1)
  set E := u * ((C.endFrame : ℝ) / C.fps) with hE
  have hT : ((frame + 1 : ℕ) : ℝ) / C.fps ≤ C.endFrame / C.fps :=
    div_le_div_of_nonneg_right (by exact_mod_cast hf) h.fps.le
  have hT0 : 0 ≤ (C.endFrame : ℝ) / C.fps := div_nonneg (Nat.cast_nonneg _) h.fps.le
  have hE0 : 0 ≤ E := mul_nonneg hu hT0
  have hF' : u * F ≤ u * (C.endFrame / C.fps + 3 * E) := mul_le_mul_of_nonneg_left (by linarith) hu
  have hF2 : u * F ≤ 11 / 10 * E := by nlinarith
  have hut : 0 ≤ u * time := by positivity
  have hs : time + chooseDtFl C fl frame time speed ≤ F + 11 / 10 * E := by nlinarith
  have hs2 : u * (time + chooseDtFl C fl frame time speed) ≤ u * (F + 11 / 10 * E) := mul_le_mul_of_nonneg_left hs hu
  nlinarith

/-- Two ends of frames differ by at least one frame, up to rounding. -/
lemma FlOk.gap (h : FlOk C u fl) {m n : ℕ} (hmn : m < n) (hn : n ≤ C.endFrame) :
    1 / C.fps - 6 * (u * (C.endFrame / C.fps)) ≤ C.frameEndFl fl n - C.frameEndFl fl m := by
  have h1 := h.frameEnd hn
  have h2 := h.frameEnd (n := m) (by omega)
  have h3 : ((m : ℝ) + 1) / C.fps ≤ n / C.fps :=
    div_le_div_of_nonneg_right (by exact_mod_cast hmn) h.fps.le
  rw [add_div] at h3
  linarith [h1.1, h2.2.1]

lemma FlOk.err_nonneg (h : FlOk C u fl) : 0 ≤ u * ((C.endFrame : ℝ) / C.fps) :=
  mul_nonneg h.rnd.nonneg (div_nonneg (Nat.cast_nonneg _) h.fps.le)

/-- What one iteration does. -/
lemma loopBodyFl_cases (C : TimeConfig d) (fl : ℝ → ℝ) (ph : PhysicsFl d W) (s : LoopState d W) :
    (loopBodyFl C fl ph s = .ub) ∨
    (∃ w g, loopBodyFl C fl ph s = .fail { s with w := w, gravity := g }) ∨
    (∃ speed w, ph.speed s.w = some speed ∧
      let dt := chooseDtFl C fl s.frame s.time speed
      ph.step s.w dt (ph.ramp s.gravity s.time) s.time s.step = some (w, false) ∧
      let s' := endOfFrameFl C fl
        { s with w := w, gravity := ph.ramp s.gravity s.time, time := fl (s.time + dt), step := s.step + 1 }
      loopBodyFl C fl ph s =
        if |fl (C.finalTimeFl fl - s'.time)| < C.tolFl fl ∨ C.finalTimeFl fl < s'.time then .brk (saveFrame C s')
        else .cont s') := by
  cases hsp : ph.speed s.w with
  | none => left; simp only [loopBodyFl, hsp]
  | some speed =>
    cases hst : ph.step s.w (chooseDtFl C fl s.frame s.time speed) (ph.ramp s.gravity s.time) s.time s.step with
    | none => left; simp only [loopBodyFl, hsp, hst]
    | some r =>
      obtain ⟨w, b⟩ := r
      cases b
      · right; right
        exact ⟨speed, w, rfl, hst, by simp only [loopBodyFl, hsp, hst]⟩
      · right; left
        exact ⟨w, ph.ramp s.gravity s.time, by simp only [loopBodyFl, hsp, hst]⟩

lemma endOfFrameFl_time (s : LoopState d W) : (endOfFrameFl C fl s).time = s.time := by
  simp only [endOfFrameFl, saveFrame]; split_ifs <;> rfl
lemma endOfFrameFl_frame (s : LoopState d W) : (endOfFrameFl C fl s).frame =
    if fl (C.frameEndFl fl (s.frame + 1) - s.time) < C.tolFl fl then s.frame + 1 else s.frame := by
  simp only [endOfFrameFl, saveFrame]; split_ifs <;> rfl

/-- The times at which frames are written. -/
def OnTime (C : TimeConfig d) (u : ℝ) (n : ℕ) (t : ℝ) : Prop :=
  n / C.fps - C.minDt * (112 / 100) - 3 * (u * (C.endFrame / C.fps)) < t ∧ t ≤ n / C.fps + 7 * (u * (C.endFrame / C.fps))

/-- The state at the head of the loop. -/
structure HeadFl (C : TimeConfig d) (u : ℝ) (fl : ℝ → ℝ) (base : List (Event W)) (s : LoopState d W) : Prop where
  room : C.tolFl fl ≤ fl (C.frameEndFl fl (s.frame + 1) - s.time)
  nonneg : 0 ≤ s.time
  out : C.saveSim = true → ∃ (t : ℕ → ℝ) (w : ℕ → W),
    s.out = base ++ (List.range s.frame).flatMap (fun n => frameFiles C (n + 1) (t (n + 1)) (w (n + 1))) ∧
    ∀ n, 1 ≤ n → n ≤ s.frame → OnTime C u n (t n)

/-- The state at the end of the loop. -/
structure DoneFl (C : TimeConfig d) (u : ℝ) (base : List (Event W)) (s : LoopState d W) : Prop where
  frame : s.frame = C.endFrame
  time : OnTime C u C.endFrame s.time
  out : C.saveSim = true → ∃ (t : ℕ → ℝ) (w : ℕ → W),
    s.out = base ++ (List.range C.endFrame).flatMap (fun n => frameFiles C (n + 1) (t (n + 1)) (w (n + 1))) ++
      frameFiles C C.endFrame (t C.endFrame) (w C.endFrame) ∧
    ∀ n, 1 ≤ n → n ≤ C.endFrame → OnTime C u n (t n)

/-- One iteration of the rounded loop. -/
lemma body_stepFl {base : List (Event W)} {s : LoopState d W} (h : FlOk C u fl) (hf : s.frame < C.endFrame)
    (hH : HeadFl C u fl base s) :
    (∀ s', loopBodyFl C fl ph s = .cont s' → HeadFl C u fl base s' ∧ s'.frame < C.endFrame ∧
      ∃ speed, ph.speed s.w = some speed ∧ s'.time = fl (s.time + chooseDtFl C fl s.frame s.time speed) ∧
        s'.frame = if fl (C.frameEndFl fl (s.frame + 1) - s'.time) < C.tolFl fl then s.frame + 1 else s.frame) ∧
    (∀ s', loopBodyFl C fl ph s = .brk s' → DoneFl C u base s') := by
  have hE := h.err_nonneg
  have hm := h.minDt
  have htol := h.tol
  have hfr := h.frame
  rcases loopBodyFl_cases C fl ph s with hb | ⟨_, _, hb⟩ | ⟨speed, w, hsp, hst, hb⟩
  · exact ⟨fun s' h' => (by rw [hb] at h'; cases h'), fun s' h' => by rw [hb] at h'; cases h'⟩
  · exact ⟨fun s' h' => (by rw [hb] at h'; cases h'), fun s' h' => by rw [hb] at h'; cases h'⟩
  obtain ⟨hb1, hb2, hb3, hb4⟩ := h.step (speed := speed) hf hH.nonneg hH.room
  set dt := chooseDtFl C fl s.frame s.time speed with hdt
  set s1 : LoopState d W :=
    { s with w := w, gravity := ph.ramp s.gravity s.time, time := fl (s.time + dt), step := s.step + 1 } with hs1
  set s2 := endOfFrameFl C fl s1 with hs2
  have ht2 : s2.time = fl (s.time + dt) := endOfFrameFl_time s1
  have hF := h.frameEnd (n := s.frame + 1) hf
  have hfr2 : s2.frame = if fl (C.frameEndFl fl (s.frame + 1) - s2.time) < C.tolFl fl then s.frame + 1 else s.frame := by
    rw [ht2]; exact endOfFrameFl_frame s1
  by_cases hend : fl (C.frameEndFl fl (s.frame + 1) - fl (s.time + dt)) < C.tolFl fl
  · have hlow := h.lt_of_tol hend
    have hontime : OnTime C u (s.frame + 1) s2.time := by
      rw [ht2]; constructor <;> linarith [hF.1, hF.2.1]
    have hfr : s2.frame = s.frame + 1 := by rw [hfr2, ht2, if_pos hend]
    have hs2' : s2 = saveFrame C { s1 with frame := s1.frame + 1 } := by
      rw [hs2, endOfFrameFl, if_pos hend]
    have hout : C.saveSim = true → ∃ (t : ℕ → ℝ) (w : ℕ → W),
        s2.out = base ++ (List.range s2.frame).flatMap
          (fun n => frameFiles C (n + 1) (t (n + 1)) (w (n + 1))) ∧
        (t s2.frame = s2.time ∧ w s2.frame = s2.w) ∧
        ∀ n, 1 ≤ n → n ≤ s2.frame → OnTime C u n (t n) := by
      intro hsave
      obtain ⟨t, w', ho, hti⟩ := hH.out hsave
      refine ⟨fun n => if n = s.frame + 1 then s2.time else t n,
        fun n => if n = s.frame + 1 then s2.w else w' n, ?_, ?_, ?_⟩
      · rw [hfr, List.range_succ, List.flatMap_append]
        have : (List.range s.frame).flatMap (fun n => frameFiles C (n + 1)
            (if n + 1 = s.frame + 1 then s2.time else t (n + 1))
            (if n + 1 = s.frame + 1 then s2.w else w' (n + 1))) =
            (List.range s.frame).flatMap (fun n => frameFiles C (n + 1) (t (n + 1)) (w' (n + 1))) := by
          refine List.flatMap_congr fun n hn => ?_
          have : ¬ (n + 1 = s.frame + 1) := by
            have := List.mem_range.mp hn; omega
          rw [if_neg this, if_neg this]
        rw [this, hs2', saveFrame_eq hsave]
        simp only [List.flatMap_cons, List.flatMap_nil, List.append_nil, if_true]
        show s.out ++ _ = _
        rw [ho, List.append_assoc]
      · simp only [hfr, if_true, and_self]
      · intro n h1 h2
        by_cases hn : n = s.frame + 1
        · simp only [hn, if_true]
          exact hontime
        · simp only [hn, if_false]
          exact hti n h1 (by omega)
    by_cases hlast : s.frame + 1 = C.endFrame
    · have hfinal : C.finalTimeFl fl = C.frameEndFl fl (s.frame + 1) := by
        rw [finalTimeFl_eq, ← hlast]
      have hbrk : |fl (C.finalTimeFl fl - s2.time)| < C.tolFl fl ∨ C.finalTimeFl fl < s2.time := by
        rw [hfinal, ht2]
        by_cases hc : C.frameEndFl fl (s.frame + 1) < fl (s.time + dt)
        · right; exact hc
        · left; rw [abs_of_nonneg (h.rnd.nonneg' (by linarith [not_lt.mp hc]))]; exact hend
      simp only [← hdt, ← hs1, ← hs2] at hb
      rw [if_pos hbrk] at hb
      refine ⟨fun s' h' => (by rw [hb] at h'; cases h'), fun s' h' => ?_⟩
      rw [hb] at h'
      injection h' with h'
      subst h'
      refine ⟨?_, ?_, ?_⟩
      · rw [saveFrame_frame, hfr, hlast]
      · rw [saveFrame_time, ← hlast]; exact hontime
      · intro hsave
        obtain ⟨t, w', ho, ⟨hti1, hwi1⟩, hti⟩ := hout hsave
        rw [hfr, hlast] at ho hti hti1 hwi1
        refine ⟨t, w', ?_, hti⟩
        rw [saveFrame_eq hsave, ← ho]
        simp only [hfr, hlast, hti1, hwi1]
    · have hgap := h.gap (m := s.frame + 1) (n := C.endFrame) (by omega) le_rfl
      have hgap2 := h.gap (m := s.frame + 1) (n := s.frame + 2) (by omega) (by omega)
      have hfar : C.tolFl fl ≤ fl (C.finalTimeFl fl - s2.time) := by
        rw [finalTimeFl_eq]; exact h.tol_le_of (by rw [ht2]; linarith)
      have hnb : ¬ (|fl (C.finalTimeFl fl - s2.time)| < C.tolFl fl ∨ C.finalTimeFl fl < s2.time) := by
        rintro (h3 | h3)
        · exact absurd ((le_abs_self _).trans_lt h3) (not_lt.mpr hfar)
        · linarith [h.pos_of_tol hfar]
      simp only [← hdt, ← hs1, ← hs2] at hb
      rw [if_neg hnb] at hb
      refine ⟨fun s' h' => ?_, fun s' h' => by rw [hb] at h'; cases h'⟩
      rw [hb] at h'
      injection h' with h'
      subst h'
      refine ⟨⟨?_, ?_, ?_⟩, ?_, speed, hsp, ht2, hfr2⟩
      · rw [hfr, ht2]; exact h.tol_le_of (by linarith)
      · rw [ht2]; exact hb3
      · intro hsave
        obtain ⟨t, w', ho, _, hti⟩ := hout hsave
        exact ⟨t, w', ho, hti⟩
      · rw [hfr]; omega
  · have hs2' : s2 = s1 := by rw [hs2, endOfFrameFl, if_neg hend]
    have hnb : ¬ (|fl (C.finalTimeFl fl - s2.time)| < C.tolFl fl ∨ C.finalTimeFl fl < s2.time) := by
      have hfar : C.tolFl fl ≤ fl (C.finalTimeFl fl - s2.time) := by
        rw [finalTimeFl_eq, ht2]
        by_cases hlast : s.frame + 1 = C.endFrame
        · rw [← hlast]; exact not_lt.mp hend
        · have hgap := h.gap (m := s.frame + 1) (n := C.endFrame) (by omega) le_rfl
          have := h.pos_of_tol (not_lt.mp hend)
          exact h.tol_le_of (by linarith)
      rintro (h3 | h3)
      · exact absurd ((le_abs_self _).trans_lt h3) (not_lt.mpr hfar)
      · linarith [h.pos_of_tol hfar]
    simp only [← hdt, ← hs1, ← hs2] at hb
    rw [if_neg hnb] at hb
    refine ⟨fun s' h' => ?_, fun s' h' => by rw [hb] at h'; cases h'⟩
    rw [hb] at h'
    injection h' with h'
    subst h'
    refine ⟨⟨?_, ?_, ?_⟩, ?_, speed, hsp, ht2, hfr2⟩
    · rw [hs2']; exact not_lt.mp hend
    · rw [ht2]; exact hb3
    · rw [hs2']; exact hH.out
    · rw [hs2']; exact hf

lemma loop_doneFl {base : List (Event W)} (h : FlOk C u fl) (fuel : ℕ) : ∀ s : LoopState d W, s.frame < C.endFrame →
    HeadFl C u fl base s → ∀ r, loopFl C fl ph fuel s = .finished r → ∃ s', DoneFl C u base s' ∧ r = finish C s' := by
  induction fuel with
  | zero => intro s hf _ r hr; simp [loopFl, hf] at hr
  | succ n ih =>
    intro s hf hH r hr
    have hb := body_stepFl (ph := ph) h hf hH
    simp only [loopFl, hf, if_true] at hr
    cases hbody : loopBodyFl C fl ph s with
    | cont s' =>
      rw [hbody] at hr
      exact ih s' (hb.1 s' hbody).2.1 (hb.1 s' hbody).1 r hr
    | brk s' =>
      rw [hbody] at hr
      injection hr with hr
      exact ⟨s', hb.2 s' hbody, hr.symm⟩
    | fail s' => rw [hbody] at hr; cases hr
    | ub => rw [hbody] at hr; cases hr

lemma simulateFl_eq {em : ElasticModel} {pm : PlasticModel} {i e : Bool} (h : accepted i em pm e = true)
    (fuel : ℕ) (s : LoopState d W) : simulateFl C fl ph i em pm e fuel s = loopFl C fl ph fuel (startState C s) := by
  simp only [simulateFl, h, if_true, startState]

lemma start_headFl (h : FlOk C u fl) (hend : 1 ≤ C.endFrame) (s : LoopState d W) :
    HeadFl C u fl (startState C s).out (startState C s) := by
  refine ⟨?_, by rw [start_time], fun _ => ⟨fun _ => 0, fun _ => s.w, ?_, ?_⟩⟩
  · rw [start_frame, start_time]
    have h1 := h.frameEnd (n := 0 + 1) hend
    have h2 := h.frame
    have h3 := h.err_nonneg
    refine h.tol_le_of ?_
    norm_num at h1 h2 h3 ⊢
    linarith [h1.1]
  · rw [start_frame]; simp
  · intro n h1 h2; rw [start_frame] at h2; omega

/-- **C98** With rounded arithmetic, a run that finishes has written, in this order: `info.txt`, the particle file of frame
0, the files of frames `1 .. end_frame` once each, the files of the last frame a second time, and the timing file. Frame
`n` is written at a time that is not more than `1.12 min_dt` before `n/fps` and not after it, up to rounding errors of the
final time. -/
theorem C98_files {em : ElasticModel} {pm : PlasticModel} {i e : Bool} (hr : Rounding u fl) (hm : 0 < C.minDt)
    (hfps : 0 < C.fps) (hfd : C.minDt * (12 / 10) + 12 * (u * (C.endFrame / C.fps)) ≤ 1 / C.fps)
    (hsave : C.saveSim = true) (hend : 1 ≤ C.endFrame) (fuel : ℕ) (s r : LoopState d W)
    (h : simulateFl C fl ph i em pm e fuel s = .finished r) :
    r.frame = C.endFrame ∧
    ∃ (t : ℕ → ℝ) (w : ℕ → W),
      r.out = s.out ++ [.info, .particles 0 0 s.w] ++
        (List.range C.endFrame).flatMap (fun n => frameFiles C (n + 1) (t (n + 1)) (w (n + 1))) ++
        frameFiles C C.endFrame (t C.endFrame) (w C.endFrame) ++ [.timing r.step] ∧
      ∀ n, 1 ≤ n → n ≤ C.endFrame →
        n / C.fps - C.minDt * (112 / 100) - 3 * (u * (C.endFrame / C.fps)) < t n ∧
        t n ≤ n / C.fps + 7 * (u * (C.endFrame / C.fps)) := by
  have hok : FlOk C u fl := ⟨hr, hm, hfps, hfd⟩
  by_cases ha : accepted i em pm e = true
  · rw [simulateFl_eq ha] at h
    obtain ⟨s', hd, hr⟩ := loop_doneFl (base := (startState C s).out) hok fuel (startState C s)
      (by rw [start_frame]; omega) (start_headFl hok hend s) r h
    obtain ⟨t, w, ho, ht⟩ := hd.out hsave
    have hfin : finish C s' = { s' with out := s'.out ++ [.timing s'.step] } := by
      simp only [finish, hsave, if_true]
    rw [hr, hfin]
    refine ⟨hd.frame, t, w, ?_, ht⟩
    show s'.out ++ _ = _
    rw [ho]
    simp only [startState, hsave, if_true]
  · simp only [simulateFl, ha, Bool.false_eq_true, if_false] at h; cases h

/-- **C98** The time at which a run with rounded arithmetic ends. -/
theorem C98_end {em : ElasticModel} {pm : PlasticModel} {i e : Bool} (hr : Rounding u fl) (hm : 0 < C.minDt)
    (hfps : 0 < C.fps) (hfd : C.minDt * (12 / 10) + 12 * (u * (C.endFrame / C.fps)) ≤ 1 / C.fps)
    (hend : 1 ≤ C.endFrame) (fuel : ℕ) (s r : LoopState d W)
    (h : simulateFl C fl ph i em pm e fuel s = .finished r) :
    r.frame = C.endFrame ∧
    C.endFrame / C.fps - C.minDt * (112 / 100) - 3 * (u * (C.endFrame / C.fps)) < r.time ∧
    r.time ≤ C.endFrame / C.fps + 7 * (u * (C.endFrame / C.fps)) := by
  have hok : FlOk C u fl := ⟨hr, hm, hfps, hfd⟩
  by_cases ha : accepted i em pm e = true
  · rw [simulateFl_eq ha] at h
    obtain ⟨s', hd, hr⟩ := loop_doneFl (base := (startState C s).out) hok fuel (startState C s)
      (by rw [start_frame]; omega) (start_headFl hok hend s) r h
    have e1 : (finish C s').frame = s'.frame := by simp only [finish]; split_ifs <;> rfl
    have e2 : (finish C s').time = s'.time := by simp only [finish]; split_ifs <;> rfl
    rw [hr, e1, e2]
    exact ⟨hd.frame, hd.time⟩
  · simp only [simulateFl, ha, Bool.false_eq_true, if_false] at h; cases h

/-! ### The loop ends -/

/-- The states at the head of the rounded loop. -/
inductive ReachFl (C : TimeConfig d) (fl : ℝ → ℝ) (ph : PhysicsFl d W) (s0 : LoopState d W) : LoopState d W → Prop
  | start : ReachFl C fl ph s0 s0
  | next {s s' : LoopState d W} : ReachFl C fl ph s0 s → s.frame < C.endFrame → loopBodyFl C fl ph s = .cont s' →
      ReachFl C fl ph s0 s'

/-- If something that is at most `M` grows by one with every iteration then the loop ends. -/
lemma loopFl_fuel {base : List (Event W)} (h : FlOk C u fl) {s0 : LoopState d W} (μ : LoopState d W → ℝ) (M : ℝ)
    (hM : ∀ s, ReachFl C fl ph s0 s → s.frame < C.endFrame → HeadFl C u fl base s → μ s ≤ M)
    (hstep : ∀ s s', ReachFl C fl ph s0 s → s.frame < C.endFrame → HeadFl C u fl base s →
      loopBodyFl C fl ph s = .cont s' → μ s + 1 ≤ μ s') (n : ℕ) :
    ∀ s, ReachFl C fl ph s0 s → s.frame < C.endFrame → HeadFl C u fl base s → M < μ s + n →
      ∀ r, loopFl C fl ph n s ≠ .outOfFuel r := by
  induction n with
  | zero =>
    intro s hr hf hH hn
    have := hM s hr hf hH
    push_cast at hn; linarith
  | succ n ih =>
    intro s hr hf hH hn r
    simp only [loopFl, hf, if_true]
    cases hbody : loopBodyFl C fl ph s with
    | cont s' =>
      obtain ⟨hH', hf', -⟩ := (body_stepFl (ph := ph) h hf hH).1 s' hbody
      have := hstep s s' hr hf hH hbody
      push_cast at hn
      exact ih s' (.next hr hf hbody) hf' hH' (by linarith) r
    | brk s' => simp
    | fail s' => simp
    | ub => simp

lemma FlOk.time_le (h : FlOk C u fl) {base : List (Event W)} {s : LoopState d W} (hf : s.frame < C.endFrame)
    (hH : HeadFl C u fl base s) :
    s.time < C.frameEndFl fl (s.frame + 1) ∧ C.frameEndFl fl (s.frame + 1) ≤ C.endFrame / C.fps * (101 / 100) := by
  have h1 := h.pos_of_tol hH.room
  have h2 := (h.frameEnd (n := s.frame + 1) hf).2.1
  have hT : ((s.frame + 1 : ℕ) : ℝ) / C.fps ≤ C.endFrame / C.fps :=
    div_le_div_of_nonneg_right (by exact_mod_cast hf) h.fps.le
  have hT0 : 0 ≤ (C.endFrame : ℝ) / C.fps := div_nonneg (Nat.cast_nonneg _) h.fps.le
  exact ⟨by linarith, by nlinarith [h.rnd.small]⟩

/-- A step of at least `eta`, if `eta` is above the resolution of the time, advances the time by half of it. -/
lemma FlOk.advance (h : FlOk C u fl) {time dt eta : ℝ} (ht : 0 ≤ time) (ht2 : time ≤ C.endFrame / C.fps * (101 / 100))
    (heta0 : 0 ≤ eta) (heta : 4 * (u * (C.endFrame / C.fps)) ≤ eta) (hdt : eta ≤ dt) : time + eta / 2 ≤ fl (time + dt) := by
  have h1 := h.rnd.ge (x := time + dt) (by linarith)
  have hu := h.rnd.nonneg
  have hu1 := h.rnd.small
  have h2 : (1 - u) * (time + eta) ≤ (1 - u) * (time + dt) :=
    mul_le_mul_of_nonneg_left (by linarith) (by linarith)
  have h3 : u * time ≤ u * (C.endFrame / C.fps * (101 / 100)) := mul_le_mul_of_nonneg_left ht2 hu
  nlinarith

/-- **C98** If `min_dt` is above the resolution of the time then a run with rounded arithmetic ends after at most
`4 T/min_dt` iterations, `T` being the final time. -/
theorem C98_terminates {em : ElasticModel} {pm : PlasticModel} {i e : Bool} (hr : Rounding u fl) (hm : 0 < C.minDt)
    (hfps : 0 < C.fps) (hfd : C.minDt * (12 / 10) + 12 * (u * (C.endFrame / C.fps)) ≤ 1 / C.fps)
    (hres : 4 * (u * (C.endFrame / C.fps)) ≤ C.minDt) (s : LoopState d W) (n : ℕ)
    (hn : 4 * (C.endFrame / C.fps) ≤ n * C.minDt) (r : LoopState d W) :
    simulateFl C fl ph i em pm e n s ≠ .outOfFuel r := by
  have hok : FlOk C u fl := ⟨hr, hm, hfps, hfd⟩
  by_cases ha : accepted i em pm e = true
  · rw [simulateFl_eq ha]
    by_cases hend : 1 ≤ C.endFrame
    · have hT : 0 < (C.endFrame : ℝ) / C.fps := div_pos (by exact_mod_cast hend) hfps
      refine loopFl_fuel (base := (startState C s).out) hok (fun s => 2 * s.time / C.minDt)
        (2 * (C.endFrame / C.fps * (101 / 100)) / C.minDt) ?_ ?_ n _ .start (by rw [start_frame]; omega)
        (start_headFl hok hend s) ?_ r
      · intro s' _ hf hH
        have := hok.time_le hf hH
        exact div_le_div_of_nonneg_right (by linarith) hm.le
      · intro s' s'' _ hf hH hb
        obtain ⟨-, -, speed, -, ht, -⟩ := (body_stepFl (ph := ph) hok hf hH).1 s'' hb
        obtain ⟨h1, h1'⟩ := hok.time_le hf hH
        have hge : C.minDt ≤ chooseDtFl C fl s'.frame s'.time speed := le_max_right _ _
        have := hok.advance hH.nonneg (by linarith) hm.le hres hge
        show 2 * s'.time / C.minDt + 1 ≤ 2 * s''.time / C.minDt
        rw [ht, div_add_one hm.ne']
        exact div_le_div_of_nonneg_right (by linarith) hm.le
      · show _ < 2 * (startState C s).time / C.minDt + n
        rw [start_time, mul_zero, zero_div, zero_add, div_lt_iff₀ hm]
        linarith
    · unfold loopFl
      rw [if_neg (show ¬ ((startState C s).frame < C.endFrame) by omega)]
      simp
  · simp only [simulateFl, ha, Bool.false_eq_true, if_false]; simp

/-- In a step that is cut short by the end of the frame the frame ends, or half of the frame end has been passed. -/
lemma FlOk.short {S : Set ℝ} (h : FlOk C u fl) (hF : Floats u fl S) {frame : ℕ} {time speed eta : ℝ}
    (hf : frame < C.endFrame) (ht : 0 ≤ time) (hS : time ∈ S)
    (hroom : C.tolFl fl ≤ fl (C.frameEndFl fl (frame + 1) - time)) (hlim : eta ≤ limitFl C fl speed)
    (hdt : chooseDtFl C fl frame time speed < eta) :
    time ≤ fl (time + chooseDtFl C fl frame time speed) ∧
    (fl (C.frameEndFl fl (frame + 1) - fl (time + chooseDtFl C fl frame time speed)) < C.tolFl fl ∨
      2 * time < C.frameEndFl fl (frame + 1) ∧
      C.frameEndFl fl (frame + 1) ≤ 2 * fl (time + chooseDtFl C fl frame time speed)) := by
  have hu := h.rnd.nonneg
  have hu1 := h.rnd.small
  have hpos := h.pos_of_tol hroom
  have hE := h.err_nonneg
  obtain ⟨-, hFle, hF0⟩ := h.frameEnd (n := frame + 1) hf
  have hT : ((frame + 1 : ℕ) : ℝ) / C.fps ≤ C.endFrame / C.fps :=
    div_le_div_of_nonneg_right (by exact_mod_cast hf) h.fps.le
  have hT0 : 0 ≤ (C.endFrame : ℝ) / C.fps := div_nonneg (Nat.cast_nonneg _) h.fps.le
  have hR2 : fl (C.frameEndFl fl (frame + 1) - time) ≤ fl (C.finalTimeFl fl - time) := by
    rw [finalTimeFl_eq]
    by_cases hlast : frame + 1 = C.endFrame
    · rw [hlast]
    · have hgap := h.gap (m := frame + 1) (n := C.endFrame) (by omega) le_rfl
      have h1 := h.rnd.le hpos.le
      have hfr := h.frame
      have hm := h.minDt
      have h2 := h.rnd.ge (x := C.frameEndFl fl C.endFrame - time) (by linarith)
      have h3 : u * (C.frameEndFl fl (frame + 1) - time) ≤ u * (C.endFrame / C.fps * (101 / 100)) :=
        mul_le_mul_of_nonneg_left (by nlinarith) hu
      have h4 : (1 - u) * (C.frameEndFl fl (frame + 1) - time + 6 * (u * (C.endFrame / C.fps))) ≤
          (1 - u) * (C.frameEndFl fl C.endFrame - time) := mul_le_mul_of_nonneg_left (by linarith) (by linarith)
      nlinarith
  have hdtR : chooseDtFl C fl frame time speed = fl (C.frameEndFl fl (frame + 1) - time) := by
    have hmR : C.minDt ≤ fl (C.frameEndFl fl (frame + 1) - time) := by linarith [h.tol.1, h.minDt]
    have e1 : chooseDtFl C fl frame time speed =
        max (min (limitFl C fl speed) (fl (C.frameEndFl fl (frame + 1) - time))) C.minDt := by
      simp only [chooseDtFl]
      rw [min_assoc, min_eq_left hR2]
    rcases le_total (limitFl C fl speed) (fl (C.frameEndFl fl (frame + 1) - time)) with hc | hc
    · exfalso
      rw [e1, min_eq_left hc] at hdt
      linarith [le_max_left (limitFl C fl speed) C.minDt]
    · rw [e1, min_eq_right hc, max_eq_left hmR]
  rw [hdtR]
  by_cases hhalf : C.frameEndFl fl (frame + 1) ≤ 2 * time
  · have hFS : C.frameEndFl fl (frame + 1) ∈ S := hF.mem _
    have hex : fl (C.frameEndFl fl (frame + 1) - time) = C.frameEndFl fl (frame + 1) - time :=
      hF.exact _ (hF.sterbenz _ hFS _ hS (by linarith) hhalf)
    have e2 : fl (time + (C.frameEndFl fl (frame + 1) - time)) = C.frameEndFl fl (frame + 1) := by
      rw [add_sub_cancel]; exact hF.exact _ (hF.mem _)
    rw [hex, e2, sub_self, h.rnd.zero]
    exact ⟨by linarith, Or.inl (by linarith [h.tol.1, h.minDt])⟩
  · rw [not_le] at hhalf
    have h1 := h.rnd.ge hpos.le
    have h2 := h.rnd.ge (x := time + fl (C.frameEndFl fl (frame + 1) - time)) (by nlinarith)
    have h3 : (1 - u) * ((1 - u) * C.frameEndFl fl (frame + 1)) ≤
        (1 - u) * (time + fl (C.frameEndFl fl (frame + 1) - time)) :=
      mul_le_mul_of_nonneg_left (by nlinarith) (by linarith)
    have h4 : C.frameEndFl fl (frame + 1) / 2 ≤ (1 - u) * ((1 - u) * C.frameEndFl fl (frame + 1)) := by
      have h5 : 1 / 2 ≤ (1 - u) * (1 - u) := by nlinarith
      nlinarith [mul_le_mul_of_nonneg_right h5 hF0]
    exact ⟨by linarith, Or.inr ⟨hhalf, by linarith⟩⟩

/-- **C98** Whatever `min_dt` is, a run with floating-point arithmetic ends after at most `4 T/eta + 2 end_frame`
iterations if the limits on the time step from the speeds of particles and waves stay above `eta` and `eta` is above the
resolution of the time. -/
theorem C98_terminates_limits {em : ElasticModel} {pm : PlasticModel} {i e : Bool} {S : Set ℝ} (hF : Floats u fl S)
    (hm : 0 < C.minDt) (hfps : 0 < C.fps)
    (hfd : C.minDt * (12 / 10) + 12 * (u * (C.endFrame / C.fps)) ≤ 1 / C.fps) {eta : ℝ} (heta0 : 0 < eta)
    (hres : 4 * (u * (C.endFrame / C.fps)) ≤ eta) (s : LoopState d W)
    (hlim : ∀ s', ReachFl C fl ph (startState C s) s' → ∀ speed, ph.speed s'.w = some speed → eta ≤ limitFl C fl speed)
    (n : ℕ) (hn : 4 * (C.endFrame / C.fps) / eta + 2 * C.endFrame ≤ n) (r : LoopState d W) :
    simulateFl C fl ph i em pm e n s ≠ .outOfFuel r := by
  have hok : FlOk C u fl := ⟨hF.toRounding, hm, hfps, hfd⟩
  by_cases ha : accepted i em pm e = true
  · rw [simulateFl_eq ha]
    by_cases hend : 1 ≤ C.endFrame
    · have hT : 0 < (C.endFrame : ℝ) / C.fps := div_pos (by exact_mod_cast hend) hfps
      classical
      have hmem : ∀ s', ReachFl C fl ph (startState C s) s' → s'.time ∈ S := by
        intro s' hr
        cases hr with
        | start => rw [start_time, ← hok.rnd.zero]; exact hF.mem _
        | next _ _ hb =>
          rcases loopBodyFl_cases C fl ph _ with h1 | ⟨_, _, h1⟩ | ⟨speed, w, hsp, hst, h1⟩
          · rw [h1] at hb; cases hb
          · rw [h1] at hb; cases hb
          · simp only at h1
            rw [h1] at hb
            split_ifs at hb
            injection hb with hb
            rw [← hb, endOfFrameFl_time]
            exact hF.mem _
      refine loopFl_fuel (base := (startState C s).out) hok
        (fun s => 2 * s.time / eta + 2 * s.frame + if C.frameEndFl fl (s.frame + 1) ≤ 2 * s.time then 1 else 0)
        (2 * (C.endFrame / C.fps * (101 / 100)) / eta + 2 * C.endFrame - 1) ?_ ?_ n _ .start
        (by rw [start_frame]; omega) (start_headFl hok hend s) ?_ r
      · intro s' _ hf hH
        have h1 := hok.time_le hf hH
        have h2 : 2 * s'.time / eta ≤ 2 * (C.endFrame / C.fps * (101 / 100)) / eta :=
          div_le_div_of_nonneg_right (by linarith) heta0.le
        have h3 : (s'.frame : ℝ) + 1 ≤ C.endFrame := by exact_mod_cast hf
        show 2 * s'.time / eta + 2 * s'.frame + (if C.frameEndFl fl (s'.frame + 1) ≤ 2 * s'.time then (1 : ℝ) else 0) ≤ _
        split_ifs <;> linarith
      · intro s' s'' hr hf hH hb
        obtain ⟨-, -, speed, hsp, ht, hfr⟩ := (body_stepFl (ph := ph) hok hf hH).1 s'' hb
        obtain ⟨h1, h1'⟩ := hok.time_le hf hH
        have hl := hlim s' hr speed hsp
        show 2 * s'.time / eta + 2 * s'.frame + (if C.frameEndFl fl (s'.frame + 1) ≤ 2 * s'.time then (1 : ℝ) else 0) + 1 ≤
          2 * s''.time / eta + 2 * s''.frame + (if C.frameEndFl fl (s''.frame + 1) ≤ 2 * s''.time then (1 : ℝ) else 0)
        have hfr' : s''.frame = s'.frame + 1 ∨ s''.frame = s'.frame ∧
            ¬ fl (C.frameEndFl fl (s'.frame + 1) - s''.time) < C.tolFl fl := by
          by_cases hc : fl (C.frameEndFl fl (s'.frame + 1) - s''.time) < C.tolFl fl
          · left; rw [hfr, if_pos hc]
          · right; rw [hfr, if_neg hc]; exact ⟨rfl, hc⟩
        have hb0 : ∀ p : Prop, [Decidable p] → (0 : ℝ) ≤ (if p then 1 else 0) ∧ (if p then (1 : ℝ) else 0) ≤ 1 :=
          fun p _ => by split_ifs <;> norm_num
        by_cases hc : eta ≤ chooseDtFl C fl s'.frame s'.time speed
        · have hadv := hok.advance hH.nonneg (by linarith) heta0.le hres hc
          rw [← ht] at hadv
          have h2 : 2 * s'.time / eta + 1 ≤ 2 * s''.time / eta := by
            rw [div_add_one heta0.ne']
            exact div_le_div_of_nonneg_right (by linarith) heta0.le
          rcases hfr' with h3 | ⟨h3, -⟩
          · rw [h3]; push_cast
            linarith [(hb0 (C.frameEndFl fl (s'.frame + 1) ≤ 2 * s'.time)).2,
              (hb0 (C.frameEndFl fl (s'.frame + 1 + 1) ≤ 2 * s''.time)).1]
          · rw [h3]
            by_cases h4 : C.frameEndFl fl (s'.frame + 1) ≤ 2 * s'.time
            · rw [if_pos h4, if_pos (by linarith)]; linarith
            · rw [if_neg h4]
              linarith [(hb0 (C.frameEndFl fl (s'.frame + 1) ≤ 2 * s''.time)).1]
        · obtain ⟨h5, h6⟩ := hok.short hF hf hH.nonneg (hmem s' hr) hH.room hl (not_le.mp hc)
          rw [← ht] at h5 h6
          have h2 : 2 * s'.time / eta ≤ 2 * s''.time / eta :=
            div_le_div_of_nonneg_right (by linarith) heta0.le
          rcases hfr' with h3 | ⟨h3, h7⟩
          · rw [h3]; push_cast
            linarith [(hb0 (C.frameEndFl fl (s'.frame + 1) ≤ 2 * s'.time)).2,
              (hb0 (C.frameEndFl fl (s'.frame + 1 + 1) ≤ 2 * s''.time)).1]
          · obtain ⟨h8, h9⟩ := h6.resolve_left h7
            rw [h3, if_neg (not_le.mpr h8), if_pos h9]
            linarith
      · have h0 : 0 ≤ (if C.frameEndFl fl ((startState C s).frame + 1) ≤ 2 * (startState C s).time then (1 : ℝ) else 0) := by
          split_ifs <;> norm_num
        have h1 : 2 * (C.endFrame / C.fps * (101 / 100)) / eta ≤ 4 * (C.endFrame / C.fps) / eta :=
          div_le_div_of_nonneg_right (by linarith) heta0.le
        have h2 : (2 * (startState C s).time / eta + 2 * ((startState C s).frame : ℝ)) = 0 := by
          rw [start_time, start_frame]; simp
        show _ < 2 * (startState C s).time / eta + 2 * ((startState C s).frame : ℝ) +
          (if C.frameEndFl fl ((startState C s).frame + 1) ≤ 2 * (startState C s).time then (1 : ℝ) else 0) + n
        linarith
    · unfold loopFl
      rw [if_neg (show ¬ ((startState C s).frame < C.endFrame) by omega)]
      simp
  · simp only [simulateFl, ha, Bool.false_eq_true, if_false]; simp

/-! ### Without such a limit the time may stop -/

namespace RoundEx

/-- The default `min_dt`, one frame of 256 seconds. -/
noncomputable def stallC : TimeConfig 2 where
  endFrame := 1
  saveSim := true
  saveGrid := false
  gravitySpecial := false
  gravityTime := 0
  minDt := 1 / 10 ^ 14
  fps := 1 / 256
  cfl := 1
  cflElastic := 128
  rho := 1
  E := 1
  dx := 1

/-- Particles at rest that become extremely fast. -/
def stallPh : PhysicsFl 2 Bool where
  speed w := some (if w then 2 ^ 60 else 0)
  ramp g _ := g
  step _ _ _ _ _ := some (true, false)

lemma pow_exact (n : ℕ) : trunc 52 (2 ^ n) = 2 ^ n :=
  (trunc_floats (p := 52) (by norm_num)).exact _ ⟨1, n, by norm_num, by rw [zpow_natCast]; simp⟩

lemma stall_ok : FlOk stallC (1 / 2 ^ 52) (trunc 52) :=
  ⟨(trunc_floats (by norm_num)).toRounding, by norm_num [stallC], by norm_num [stallC], by norm_num [stallC]⟩

lemma stall_end : stallC.frameEndFl (trunc 52) (0 + 1) = 256 ∧ stallC.finalTimeFl (trunc 52) = 256 := by
  have h := pow_exact 8
  norm_num at h
  have h1 : stallC.frameDtFl (trunc 52) = 256 := by
    rw [TimeConfig.frameDtFl, show (1 : ℝ) / stallC.fps = 256 by norm_num [stallC], h]
  constructor
  · rw [TimeConfig.frameEndFl, h1]; norm_num [h]
  · rw [TimeConfig.finalTimeFl, h1, show ((stallC.endFrame : ℕ) : ℝ) = 1 by norm_num [stallC], one_mul, h]

lemma stall_tol : stallC.tolFl (trunc 52) < 1 := by
  have := stall_ok.tol.2
  norm_num [stallC] at this ⊢
  linarith

lemma stall_dtMax : stallC.dtMaxFl (trunc 52) = 128 := by
  have h7 := pow_exact 7
  have h0 := pow_exact 0
  norm_num at h7 h0
  simp only [TimeConfig.dtMaxFl, stallC]
  norm_num [h7, h0]

/-- The time does not change. -/
lemma stall_add : trunc 52 (128 + 1 / 10 ^ 14) = 128 := by
  have hlog : Int.log 2 ((128 : ℝ) + 1 / 10 ^ 14) = 7 := by
    have h1 : (7 : ℤ) ≤ Int.log 2 ((128 : ℝ) + 1 / 10 ^ 14) :=
      (Int.zpow_le_iff_le_log (b := 2) (by norm_num) (by norm_num)).mp (by norm_num)
    have h2 : Int.log 2 ((128 : ℝ) + 1 / 10 ^ 14) < 8 :=
      (Int.lt_zpow_iff_log_lt (b := 2) (by norm_num) (by norm_num)).mp (by norm_num)
    omega
  have hsp : spacing 52 ((128 : ℝ) + 1 / 10 ^ 14) = -45 := by
    rw [spacing, abs_of_pos (by norm_num), hlog]; norm_num
  rw [trunc, if_pos (by norm_num), hsp, abs_of_pos (by norm_num)]
  have hfl : ⌊((128 : ℝ) + 1 / 10 ^ 14) / 2 ^ (-45 : ℤ)⌋ = 2 ^ 52 := by
    rw [Int.floor_eq_iff]
    constructor <;> norm_num
  rw [hfl]; norm_num

/-- At 128 seconds the loop goes round without end. -/
lemma stall_body (s : LoopState 2 Bool) (hw : s.w = true) (ht : s.time = 128) (hf : s.frame = 0) :
    ∃ s', loopBodyFl stallC (trunc 52) stallPh s = .cont s' ∧ s'.w = true ∧ s'.time = 128 ∧ s'.frame = 0 := by
  have h7 := pow_exact 7
  have h0 := pow_exact 0
  norm_num at h7 h0
  have hR : trunc 52 (256 - 128) = 128 := by norm_num [h7]
  have hlim : limitFl stallC (trunc 52) (2 ^ 60) ≤ 1 / 10 ^ 14 := by
    have hc : |(2 : ℝ) ^ 60| > trunc 52 (1 / 10 ^ 10) := by
      have := (trunc_pos_bounds 52 (x := 1 / 10 ^ 10) (by norm_num)).2.1
      norm_num at this ⊢; linarith
    rw [limitFl, if_pos hc]
    refine (min_le_left _ _).trans ?_
    have h1 : trunc 52 (stallC.cfl * stallC.dx) = 1 := by norm_num [stallC, h0]
    rw [h1]
    refine (trunc_pos_bounds 52 (x := 1 / 2 ^ 60) (by norm_num)).2.1.trans ?_
    norm_num
  have hdt : chooseDtFl stallC (trunc 52) s.frame s.time (2 ^ 60) = 1 / 10 ^ 14 := by
    rw [hf, ht]
    simp only [chooseDtFl]
    exact max_eq_right ((min_le_left _ _).trans ((min_le_left _ _).trans hlim))
  have hnot : ¬ (trunc 52 (stallC.frameEndFl (trunc 52) (0 + 1) - 128) < stallC.tolFl (trunc 52)) := by
    rw [stall_end.1, hR]; linarith [stall_tol]
  have hb : loopBodyFl stallC (trunc 52) stallPh s =
      .cont { s with w := true, gravity := s.gravity, time := 128, step := s.step + 1 } := by
    have h1 : stallPh.speed s.w = some (2 ^ 60) := by simp [stallPh, hw]
    have h1s : ∀ (w : Bool) (a : ℝ) (g : Fin 2 → ℝ) (t : ℝ) (k : ℕ), stallPh.step w a g t k = some (true, false) :=
      fun _ _ _ _ _ => rfl
    have h1g : ∀ (g : Fin 2 → ℝ) (t : ℝ), stallPh.ramp g t = g := fun _ _ => rfl
    simp only [loopBodyFl, h1, h1s, h1g]
    rw [hdt]
    rw [ht, stall_add]
    have h2 : endOfFrameFl stallC (trunc 52)
        { s with w := true, gravity := s.gravity, time := 128, step := s.step + 1 } =
        { s with w := true, gravity := s.gravity, time := 128, step := s.step + 1 } := by
      simp only [endOfFrameFl, hf]
      rw [if_neg hnot]
    rw [h2, if_neg]
    simp only [stall_end.2, hR]
    rintro (h3 | h3)
    · rw [abs_of_pos (by norm_num)] at h3; linarith [stall_tol]
    · norm_num at h3
  exact ⟨_, hb, rfl, rfl, hf⟩

lemma stall_loop (n : ℕ) : ∀ s : LoopState 2 Bool, s.w = true → s.time = 128 → s.frame = 0 →
    ∃ r, loopFl stallC (trunc 52) stallPh n s = .outOfFuel r := by
  induction n with
  | zero =>
    intro s _ _ hf
    exact ⟨s, by unfold loopFl; rw [if_pos (by rw [hf]; exact Nat.one_pos)]⟩
  | succ n ih =>
    intro s hw ht hf
    obtain ⟨s', hb, h1, h2, h3⟩ := stall_body s hw ht hf
    obtain ⟨r, hr⟩ := ih s' h1 h2 h3
    refine ⟨r, ?_⟩
    unfold loopFl
    rw [if_pos (by rw [hf]; exact Nat.one_pos)]
    simp only [hb, hr]

/-- The first step takes 128 seconds. -/
lemma stall_first (s : LoopState 2 Bool) (hw : s.w = false) (ht : s.time = 0) (hf : s.frame = 0) :
    ∃ s', loopBodyFl stallC (trunc 52) stallPh s = .cont s' ∧ s'.w = true ∧ s'.time = 128 ∧ s'.frame = 0 := by
  have h7 := pow_exact 7
  have h8 := pow_exact 8
  norm_num at h7 h8
  have hR : trunc 52 (256 - 128) = 128 := by norm_num [h7]
  have hlim : limitFl stallC (trunc 52) 0 = 128 := by
    have hc : ¬ (|(0 : ℝ)| > trunc 52 (1 / 10 ^ 10)) := by
      rw [abs_zero]
      exact not_lt.mpr (stall_ok.rnd.nonneg' (by norm_num))
    rw [limitFl, if_neg hc, stall_dtMax]
  have hdt : chooseDtFl stallC (trunc 52) s.frame s.time 0 = 128 := by
    rw [hf, ht]
    simp only [chooseDtFl]
    rw [stall_end.1, stall_end.2, hlim, sub_zero, h8]
    norm_num [stallC]
  have hnot : ¬ (trunc 52 (stallC.frameEndFl (trunc 52) (0 + 1) - 128) < stallC.tolFl (trunc 52)) := by
    rw [stall_end.1, hR]; linarith [stall_tol]
  have hb : loopBodyFl stallC (trunc 52) stallPh s =
      .cont { s with w := true, gravity := s.gravity, time := 128, step := s.step + 1 } := by
    have h1 : stallPh.speed s.w = some 0 := by simp [stallPh, hw]
    have h1s : ∀ (w : Bool) (a : ℝ) (g : Fin 2 → ℝ) (t : ℝ) (k : ℕ), stallPh.step w a g t k = some (true, false) :=
      fun _ _ _ _ _ => rfl
    have h1g : ∀ (g : Fin 2 → ℝ) (t : ℝ), stallPh.ramp g t = g := fun _ _ => rfl
    simp only [loopBodyFl, h1, h1s, h1g]
    rw [hdt]
    rw [ht, zero_add, h7]
    have h2 : endOfFrameFl stallC (trunc 52)
        { s with w := true, gravity := s.gravity, time := 128, step := s.step + 1 } =
        { s with w := true, gravity := s.gravity, time := 128, step := s.step + 1 } := by
      simp only [endOfFrameFl, hf]
      rw [if_neg hnot]
    rw [h2, if_neg]
    simp only [stall_end.2, hR]
    rintro (h3 | h3)
    · rw [abs_of_pos (by norm_num)] at h3; linarith [stall_tol]
    · norm_num at h3
  exact ⟨_, hb, rfl, rfl, hf⟩

end RoundEx

/-- **C98** Without a lower limit on the time step above the resolution of the time, `min_dt` does not make the loop end,
although it does in exact arithmetic (C20). Witness: numbers with 53 binary digits, the default `min_dt`, a
particle that becomes extremely fast at 128 seconds. From then on adding `min_dt` to the time does not change it. -/
theorem C98_terminates_false : ¬ ∀ (C : TimeConfig 2) (u : ℝ) (fl : ℝ → ℝ) (S : Set ℝ) (ph : PhysicsFl 2 Bool)
    (s : LoopState 2 Bool), Floats u fl S → 0 < C.minDt → 0 < C.fps →
    C.minDt * (12 / 10) + 12 * (u * (C.endFrame / C.fps)) ≤ 1 / C.fps →
    ∃ n, ∀ r, simulateFl C fl ph true .hencky .noPlasticity false n s ≠ .outOfFuel r := by
  intro hall
  obtain ⟨n, hn⟩ := hall RoundEx.stallC _ _ _ RoundEx.stallPh
    { w := false, time := 0, frame := 0, step := 0, gravity := 0, out := [] } (trunc_floats (p := 52) (by norm_num))
    RoundEx.stall_ok.minDt RoundEx.stall_ok.fps RoundEx.stall_ok.frame
  rw [simulateFl_eq (by decide)] at hn
  set s0 := startState RoundEx.stallC
    ({ w := false, time := 0, frame := 0, step := 0, gravity := 0, out := [] } : LoopState 2 Bool) with hs0
  have hw : s0.w = false := rfl
  cases n with
  | zero =>
    refine hn s0 ?_
    unfold loopFl
    rw [if_pos (show s0.frame < RoundEx.stallC.endFrame from Nat.one_pos)]
  | succ n =>
    obtain ⟨s', hb, h1, h2, h3⟩ := RoundEx.stall_first s0 hw rfl rfl
    obtain ⟨r, hr⟩ := RoundEx.stall_loop n s' h1 h2 h3
    refine hn r ?_
    unfold loopFl
    rw [if_pos (show s0.frame < RoundEx.stallC.endFrame from Nat.one_pos)]
    simp only [hb, hr]

/-! ### Without rounding -/

lemma loopBodyFl_id (C : TimeConfig d) (ph : Physics d W) (gf : Fin d → ℝ) (s : LoopState d W) :
    loopBodyFl C id (ph.exact C gf) s = loopBody C ph gf s := by
  have h1 : C.frameEndFl id (s.frame + 1) = C.frameDt * (s.frame + 1) := by
    simp [TimeConfig.frameEndFl, TimeConfig.frameDtFl, TimeConfig.frameDt]
  have h2 : C.finalTimeFl id = C.finalTime := by
    simp [TimeConfig.finalTimeFl, TimeConfig.frameDtFl, TimeConfig.finalTime, TimeConfig.frameDt]
  have h3 : C.tolFl id = C.minDt * (11 / 10) := rfl
  have h4 : C.dtMaxFl id = C.dtMax := by
    simp [TimeConfig.dtMaxFl, TimeConfig.dtMax, TimeConfig.waveSpeed]
  simp only [loopBodyFl, loopBody, Physics.exact, updateDt]
  cases maxSpeed (ph.velocities s.w) with
  | none => rfl
  | some sp =>
    have h5 : chooseDtFl C id s.frame s.time sp = chooseDt C s.frame s.time sp := by
      simp only [chooseDtFl, chooseDt, limitFl, h1, h2, h4, id]
    simp only [Option.map_some, h5]
    cases ph.step s.w (chooseDt C s.frame s.time sp) (rampGravity C gf s.gravity s.time) s.time s.step with
    | none => rfl
    | some r =>
      obtain ⟨w, _ | _⟩ := r
      · simp only [endOfFrameFl, endOfFrame, h1, h2, h3, id]
      · rfl

/-- Without rounding this is the loop of `Model/Time`. -/
lemma loopFl_id (C : TimeConfig d) (ph : Physics d W) (gf : Fin d → ℝ) (fuel : ℕ) (s : LoopState d W) :
    loopFl C id (ph.exact C gf) fuel s = loop C ph gf fuel s := by
  induction fuel generalizing s with
  | zero => unfold loopFl loop; rfl
  | succ n ih =>
    unfold loopFl loop
    split_ifs
    · simp only [loopBodyFl_id]
      cases loopBody C ph gf s with
      | cont s' => exact ih s'
      | brk s' => rfl
      | fail s' => rfl
      | ub => rfl
    · rfl

/-- **C98** Without rounding, `simulateFl` is `simulate`. -/
theorem C98_exact (C : TimeConfig d) (ph : Physics d W) (i e : Bool) (em : ElasticModel) (pm : PlasticModel) (fuel : ℕ)
    (s : LoopState d W) :
    simulateFl C id (ph.exact C s.gravity) i em pm e fuel s = simulate C ph i em pm e fuel s := by
  simp only [simulateFl, simulate, loopFl_id]

/-! ### Examples -/

/-- A run whose steps all succeed finishes or runs out of fuel. -/
lemma loopFl_finishes (hsp : ∀ w, ∃ v, ph.speed w = some v)
    (hst : ∀ w dt g t k, ∃ w', ph.step w dt g t k = some (w', false)) (n : ℕ) : ∀ s : LoopState d W,
    (∃ r, loopFl C fl ph n s = .finished r) ∨ ∃ r, loopFl C fl ph n s = .outOfFuel r := by
  induction n with
  | zero =>
    intro s
    unfold loopFl
    by_cases hf : s.frame < C.endFrame
    · right; exact ⟨s, by rw [if_pos hf]⟩
    · left; exact ⟨_, by rw [if_neg hf]⟩
  | succ n ih =>
    intro s
    by_cases hf : s.frame < C.endFrame
    · rcases loopBodyFl_cases C fl ph s with hb | ⟨w, g, hb⟩ | ⟨speed, w, hs, hst', hb⟩
      · exfalso
        obtain ⟨v, hv⟩ := hsp s.w
        obtain ⟨w', hw'⟩ := hst s.w (chooseDtFl C fl s.frame s.time v) (ph.ramp s.gravity s.time) s.time s.step
        simp only [loopBodyFl, hv, hw'] at hb
        split_ifs at hb
      · exfalso
        obtain ⟨v, hv⟩ := hsp s.w
        obtain ⟨w', hw'⟩ := hst s.w (chooseDtFl C fl s.frame s.time v) (ph.ramp s.gravity s.time) s.time s.step
        simp only [loopBodyFl, hv, hw'] at hb
        split_ifs at hb
      · simp only at hb
        unfold loopFl
        rw [if_pos hf]
        simp only [hb]
        split_ifs
        · left; exact ⟨_, rfl⟩
        · exact ih _
    · left
      unfold loopFl
      exact ⟨_, by rw [if_neg hf]⟩

namespace RoundEx

/-- Particles that stay at rest. -/
def calmPh : PhysicsFl 2 Unit where
  speed _ := some 0
  ramp g _ := g
  step _ _ _ _ _ := some ((), false)

/-- With 53 binary digits and the default `min_dt` the hypotheses of `C98_terminates_limits` hold for particles at rest
and 256 seconds. -/
lemma calm_ends (s : LoopState 2 Unit) (r : LoopState 2 Unit) :
    simulateFl stallC (trunc 52) calmPh true .hencky .noPlasticity false 10 s ≠ .outOfFuel r := by
  refine C98_terminates_limits (eta := 128) (trunc_floats (p := 52) (by norm_num)) stall_ok.minDt stall_ok.fps
    stall_ok.frame (by norm_num) (by norm_num [stallC]) s ?_ 10 (by norm_num [stallC]) r
  intro s' _ speed hsp
  have h0 : speed = 0 := by simpa [calmPh] using hsp.symm
  have hc : ¬ (|(0 : ℝ)| > trunc 52 (1 / 10 ^ 10)) := by
    rw [abs_zero]
    exact not_lt.mpr (stall_ok.rnd.nonneg' (by norm_num))
  rw [h0, limitFl, if_neg hc, stall_dtMax]

/-- The hypotheses of `C98_files` hold for this run. -/
example : ∃ r : LoopState 2 Unit,
    simulateFl stallC (trunc 52) calmPh true .hencky .noPlasticity false 10
      { w := (), time := 0, frame := 0, step := 0, gravity := 0, out := [] } = .finished r ∧
    ∃ t, r.out = [.info, .particles 0 0 (), .particles 1 t (), .particles 1 t (), .timing r.step] ∧
      256 - 2 / 10 ^ 12 < t ∧ t ≤ 256 + 2 / 10 ^ 12 := by
  have hfin : ∃ r : LoopState 2 Unit,
      simulateFl stallC (trunc 52) calmPh true .hencky .noPlasticity false 10
        { w := (), time := 0, frame := 0, step := 0, gravity := 0, out := [] } = .finished r := by
    rw [simulateFl_eq (by decide)]
    rcases loopFl_finishes (C := stallC) (fl := trunc 52) (ph := calmPh) (fun w => ⟨0, rfl⟩)
      (fun _ _ _ _ _ => ⟨(), rfl⟩) 10
      (startState stallC { w := (), time := 0, frame := 0, step := 0, gravity := 0, out := [] }) with h | ⟨r, h⟩
    · exact h
    · exact absurd ((simulateFl_eq (by decide) _ _).trans h) (calm_ends _ r)
  obtain ⟨r, hr⟩ := hfin
  obtain ⟨-, t, w, ho, ht⟩ := C98_files stall_ok.rnd stall_ok.minDt stall_ok.fps stall_ok.frame rfl (by decide) 10 _ r hr
  refine ⟨r, hr, t 1, ?_, ?_⟩
  · rw [ho]
    simp [stallC, frameFiles]
  · have := ht 1 le_rfl (by decide)
    norm_num [stallC] at this ⊢
    constructor <;> linarith [this.1, this.2]

/-- The hypotheses of `C98_terminates`: 53 binary digits, frames of 1/8 second, `min_dt` of a nanosecond. -/
example (s r : LoopState 2 Unit) (n : ℕ) (hn : 4 * (8 / 8) ≤ (n : ℝ) * (1 / 10 ^ 9)) :
    simulateFl { stallC with endFrame := 8, fps := 8, minDt := 1 / 10 ^ 9 } (trunc 52) calmPh true .hencky .noPlasticity
      false n s ≠ .outOfFuel r :=
  C98_terminates (u := 1 / 2 ^ 52) stall_ok.rnd (by norm_num) (by norm_num) (by norm_num) (by norm_num) s n
    (by norm_num at hn ⊢; linarith) r

end RoundEx

end Verif.Props
