import Verif.Props.Dependence
import Verif.Props.RunExamples

set_option linter.unusedSectionVars false
set_option linter.unusedSimpArgs false
set_option linter.unusedVariables false

/-!
# C118: examples

Two particles fall; in a second run there is a third one, far away.
-/

namespace Verif.Props.RunEx
open Verif Matrix
noncomputable section

/-- A particle far away. -/
def third : Particle 2 ℝ := { Particle.init with x := ![100, 0] }

/-- The pair and the third particle. -/
def withThird : List (Particle 2 ℝ) := pair ++ [third]

/-- Particles at rest, without stress, at nodes of the lattice and right of or above the particle in the origin. -/
def Orderly (ps : List (Particle 2 ℝ)) : Prop :=
  Particle.init ∈ ps ∧ ∀ p ∈ ps, (p.v = 0 ∧ p.Bmat = 0 ∧ p.tau = 0 ∧ Unstrained p.F) ∧ ∀ a, ∃ j : ℕ, p.x a = j

lemma pair_orderly : Orderly pair := by
  refine ⟨by simp [pair], fun p hp => ⟨pair_rest p hp, fun a => ?_⟩⟩
  simp only [pair, List.mem_cons, List.not_mem_nil, or_false] at hp
  rcases hp with rfl | rfl
  · exact ⟨0, by simp [Particle.init]⟩
  · fin_cases a
    · exact ⟨1, by simp⟩
    · exact ⟨0, by simp⟩

lemma third_orderly : Orderly withThird := by
  obtain ⟨h1, h2⟩ := pair_orderly
  refine ⟨by simp [withThird, h1], fun p hp => ?_⟩
  rcases List.mem_append.mp hp with hp | hp
  · exact h2 p hp
  · obtain rfl := List.mem_singleton.mp hp
    refine ⟨⟨rfl, rfl, rfl, by simp [third, Unstrained, Particle.init]⟩, fun a => ?_⟩
    fin_cases a
    · exact ⟨100, by simp [third]⟩
    · exact ⟨0, by simp [third]⟩

lemma Orderly.least {ps : List (Particle 2 ℝ)} (h : Orderly ps) (a : Fin 2) :
    IsLeast (coords (none : Option (Fin 2 → ℝ)) (ps.map fun p => p.x) a) ((0 : Fin 2 → ℝ) a) := by
  refine ⟨.inl ⟨_, List.mem_map_of_mem h.1, by simp [Particle.init]⟩, ?_⟩
  rintro y (⟨x, hx, rfl⟩ | ⟨r, hr, -⟩)
  · obtain ⟨p, hp, rfl⟩ := List.mem_map.mp hx
    obtain ⟨j, hj⟩ := (h.2 p hp).2 a
    rw [hj]
    exact Nat.cast_nonneg _
  · cases hr

lemma Orderly.ne {ps : List (Particle 2 ℝ)} (h : Orderly ps) : ps ≠ [] := List.ne_nil_of_mem h.1

lemma orderly_begin (musl : Bool) {ps : List (Particle 2 ℝ)} (h : Orderly ps) {g : Fin 2 → ℝ} {s1 : LoopState 2 (World 2)} {dt : ℝ}
    {g' : Fin 2 → ℝ} {w : World 2} (hst : StepOf (setup musl 1 .vm) (start ps g) s1 dt g' w) :
    s1 = begin (setup musl 1 .vm) (start ps g) ∧ s1.w.ps = ps ∧ s1.time = 0 := by
  obtain ⟨k, hr, -⟩ := hst
  obtain rfl := only_begin musl h.ne (fun p hp => (h.2 p hp).1.1) g k s1 hr
  cases hr
  refine ⟨rfl, ?_, begin_time⟩
  rw [begin_w]; simp [fillMuI, setup, start, mkTransferParams]

lemma orderly_step (musl : Bool) {ps : List (Particle 2 ℝ)} (h : Orderly ps) {g : Fin 2 → ℝ} {s1 : LoopState 2 (World 2)} {dt : ℝ}
    {g' : Fin 2 → ℝ} {w : World 2} (hst : StepOf (setup musl 1 .vm) (start ps g) s1 dt g' w) :
    NoTinyWeights .two 1 w.g s1.w.ps := by
  obtain ⟨m0, h0, h1⟩ := run_lattice (R := setup musl 1 .vm) (dx := 1) rfl one_pos rfl rfl (by simpa [start] using h.ne) hst
  obtain ⟨-, hw, -⟩ := orderly_begin musl h hst
  rw [hw]
  intro q hq j hj
  choose k hk using fun a => h1 a _ (List.getElem_mem (hj a))
  have e1 : nodeAt w.g j = fun a => m0 a + k a * 1 := by
    ext a
    rw [nodeAt, List.getD_eq_getElem?_getD, List.getElem?_eq_getElem (hj a), Option.getD_some, hk a]
  have hm0 : ∀ a, m0 a = 0 := fun a => (h0 a).unique (h.least a)
  rw [e1]
  have hN : ∀ a, N .two ((q.x a - (m0 a + k a * 1)) / 1) = 0 ∨ 1 / 8 ≤ N .two ((q.x a - (m0 a + k a * 1)) / 1) := by
    intro a
    obtain ⟨i, hi⟩ := (h.2 q hq).2 a
    have : (q.x a - (m0 a + k a * 1)) / 1 = ((i - k a : ℤ) : ℝ) := by rw [hi, hm0]; push_cast; ring
    rw [this]
    exact N2_int _
  simp only [shape, Fin.prod_univ_two]
  rcases hN 0 with h0 | h0
  · left; rw [h0, zero_mul]
  rcases hN 1 with h1 | h1
  · left; rw [h1, mul_zero]
  right
  have := mul_le_mul h0 h1 (by norm_num) (by linarith)
  refine lt_of_lt_of_le ?_ this
  norm_num

/-- In the step the particles fall by at most 10. -/
lemma orderly_moves (musl : Bool) {ps : List (Particle 2 ℝ)} (h : Orderly ps) {s1 : LoopState 2 (World 2)} {dt : ℝ}
    {g' : Fin 2 → ℝ} {w : World 2} (hst : StepOf (setup musl 1 .vm) (start ps ![0, -10]) s1 dt g' w) :
    MovesAtMost 10 s1.w.ps w.ps := by
  obtain ⟨h0, hstep⟩ := fall_inv (R := setup musl 1 .vm) (s := start ps ![0, -10]) (deg := .two) (dx := 1)
    (fr := -19 / 20) (m := 3) (vol := 1) (mibf := false) (c := 0) rfl (by simp) one_pos (by norm_num) rfl rfl rfl rfl
    (fun _ _ => by simp [setup]) (by norm_num [setup, cfg, exConfig])
    (.inr ⟨Ex.mat_ok _, .inl ⟨rfl, by norm_num [setup, Ex.mat]⟩⟩) someSvd_isSvd
    (fun _ _ _ _ hst _ => orderly_step musl h hst) (fun p hp => (h.2 p hp).1)
  obtain ⟨e, hps, ht⟩ := orderly_begin musl h hst
  have := hstep s1 dt g' w hst (by rw [e]; exact h0)
  obtain ⟨-, -, t0, τ, u, -, -, u0, hu, hall⟩ := this
  obtain ⟨-, -, hu1⟩ := hu rfl
  have hle := hst.dt_le
  have hmax : max (setup musl 1 .vm).C.dtMax (setup musl 1 .vm).C.minDt = 1 := by
    show max (exConfig (1 / 10) 1).dtMax (exConfig (1 / 10) 1).minDt = 1
    rw [ex_dtMax]; norm_num [exConfig]
  rw [hmax] at hu1 hle
  rw [ht, zero_add] at hu1 t0
  have hu2 : u ≤ 1 := by nlinarith
  rw [hps]
  refine hall.imp ?_
  rintro p p' ⟨-, hx, -⟩ a
  rw [hx]
  show |(p.x + (s1.time + dt) • (0 : Fin 2 → ℝ) + u • (![0, -10] : Fin 2 → ℝ)) a - p.x a| ≤ 10
  fin_cases a
  · simp
  · simp [abs_mul, abs_of_nonneg u0]
    linarith

lemma orderly_slow (musl : Bool) {ps : List (Particle 2 ℝ)} (h : Orderly ps) {g : Fin 2 → ℝ} {s1 : LoopState 2 (World 2)} {dt : ℝ}
    {g' : Fin 2 → ℝ} {w : World 2} (hst : StepOf (setup musl 1 .vm) (start ps g) s1 dt g' w) :
    Slow (d := 0) (setup musl 1 .vm).C s1.w.ps := by
  intro p hp
  rw [(orderly_begin musl h hst).2.1] at hp
  rw [(h.2 p hp).1.1]
  norm_num [setup, cfg, exConfig]

/-- `C118`: in the file of the first frame, the part of the space around the fallen pair is the same in both runs. -/
example (musl : Bool) : ∃ t w w',
    .particles 1 t w ∈ filesOf (runProgram (setup musl 1 .vm) true false 10 (start pair ![0, -10])) ∧
    .particles 1 t w' ∈ filesOf (runProgram (setup musl 1 .vm) true false 10 (start withThird ![0, -10])) ∧
    inCube ![0, -10] 4 w.ps = inCube ![0, -10] 4 w'.ps := by
  obtain ⟨r, h, t, w, hw⟩ := one_step_run musl (pm := .vm) (.inl rfl) pair_orderly.ne
    (fun p hp => (pair_orderly.2 p hp).1.1) ![0, -10]
  obtain ⟨r', h', t', w', hw'⟩ := one_step_run musl (pm := .vm) (.inl rfl) third_orderly.ne
    (fun p hp => (third_orderly.2 p hp).1.1) ![0, -10]
  have hev : .particles 1 t w ∈ filesOf (runProgram (setup musl 1 .vm) true false 10 (start pair ![0, -10])) := by
    rw [h]; exact hw
  have hev' : .particles 1 t' w' ∈ filesOf (runProgram (setup musl 1 .vm) true false 10 (start withThird ![0, -10])) := by
    rw [h']; exact hw'
  have hdt := C118_slow (d := 0) (R := setup musl 1 .vm) (s := start pair ![0, -10]) (s' := start withThird ![0, -10])
    (fun _ _ _ _ h => orderly_slow musl pair_orderly h) (fun _ _ _ _ h => orderly_slow musl third_orderly h)
  have hlen : ∀ {s1 dt g w s1' dt' g' w'}, StepOf (setup musl 1 .vm) (start pair ![0, -10]) s1 dt g w →
      StepOf (setup musl 1 .vm) (start withThird ![0, -10]) s1' dt' g' w' → s1'.time + dt' = s1.time + dt ∧ s1.time = 0 := by
    intro s1 dt g w s1' dt' g' w' h h'
    have e := (orderly_begin musl pair_orderly h).2.2
    have e' := (orderly_begin musl third_orderly h').2.2
    obtain ⟨k, hk⟩ := h
    obtain ⟨k', hk'⟩ := h'
    obtain rfl := only_begin musl pair_orderly.ne (fun p hp => (pair_orderly.2 p hp).1.1) _ k s1 hk.1
    obtain rfl := only_begin musl third_orderly.ne (fun p hp => (third_orderly.2 p hp).1.1) _ k' s1' hk'.1
    rw [e, e', hdt 0 _ _ _ _ _ _ _ _ hk hk']
    exact ⟨rfl, rfl⟩
  have htt : t' = t ∧ t ≤ 1 := by
    rcases run_particles hev (by simp [start]) with ⟨h, -⟩ | ⟨s1, dt, g, hst, ht⟩
    · cases h
    rcases run_particles hev' (by simp [start]) with ⟨h, -⟩ | ⟨s1', dt', g', hst', ht'⟩
    · cases h
    have hle := hst.dt_le
    have hmax : max (setup musl 1 .vm).C.dtMax (setup musl 1 .vm).C.minDt = 1 := by
      show max (exConfig (1 / 10) 1).dtMax (exConfig (1 / 10) 1).minDt = 1
      rw [ex_dtMax]; norm_num [exConfig]
    rw [hmax] at hle
    have := hlen hst hst'
    exact ⟨by rw [ht, ht', this.1], by rw [ht, this.2, zero_add]; exact hle⟩
  obtain ⟨rfl, -⟩ := htt
  refine ⟨t', w, w', hev, hev', ?_⟩
  rcases run_particles hev (by simp [start]) with ⟨h, -⟩ | ⟨s1, dt, g, ⟨k, hst⟩, ht⟩
  · cases h
  rcases run_particles hev' (by simp [start]) with ⟨h, -⟩ | ⟨s1', dt', g', ⟨k', hst'⟩, ht'⟩
  · cases h
  have e := orderly_begin musl pair_orderly ⟨k, hst⟩
  have e' := orderly_begin musl third_orderly ⟨k', hst'⟩
  obtain rfl := only_begin musl pair_orderly.ne (fun p hp => (pair_orderly.2 p hp).1.1) _ k s1 hst.1
  obtain rfl := only_begin musl third_orderly.ne (fun p hp => (third_orderly.2 p hp).1.1) _ k' s1' hst'.1
  have hsame : inCube ![0, -10] 20 pair = inCube ![0, -10] 20 withThird := by
    classical
    have : inCube ![0, -10] 20 withThird = inCube ![0, -10] 20 pair ++ inCube ![0, -10] 20 [third] := by
      unfold inCube withThird
      exact List.filter_append ..
    rw [this]
    have : inCube ![0, -10] 20 [third] = [] := by
      refine List.filter_eq_nil_iff.mpr fun p hp => ?_
      obtain rfl := List.mem_singleton.mp hp
      simp only [decide_eq_true_eq]
      intro hc
      have := hc 0
      norm_num [third] at this
    rw [this, List.append_nil]
  obtain ⟨h1, -⟩ := C118_step (d := 0) (R := setup musl 1 .vm) (s := start pair ![0, -10]) (s' := start withThird ![0, -10])
    (deg := .two) (dx := 1) (fr := -19 / 20) (m := 3) (vol := 1) (mibf := false) (o := 0) (o' := 0) rfl (by decide) one_pos
    (by norm_num) rfl rfl pair_orderly.ne rfl third_orderly.ne (fun _ _ => by simp [setup]) pair_orderly.least
    third_orderly.least (fun a => ⟨0, by simp⟩) rfl rfl hdt (fun _ _ _ _ h => orderly_moves musl pair_orderly h)
    (fun _ _ _ _ h => orderly_moves musl third_orderly h) hsame hst hst' (ρ := 20) (by rw [e.2.1, e'.2.1]; exact hsame)
    (by rw [e.1, e'.1, begin_walls, begin_walls]; rfl) (by rw [e.2.2, e'.2.2])
  have key : ∀ {a b : ℝ} {l l' : List (Particle 2 ℝ)}, a ≤ b → inCube ![0, -10] b l = inCube ![0, -10] b l' →
      inCube ![0, -10] a l = inCube ![0, -10] a l' := by
    intro a b l l' hab h
    classical
    have : ∀ l : List (Particle 2 ℝ), inCube ![0, -10] a l = inCube ![0, -10] a (inCube ![0, -10] b l) := by
      intro l
      unfold inCube
      rw [List.filter_filter]
      refine List.filter_congr fun p _ => ?_
      by_cases hp : InCube ![0, -10] a p.x
      · simp [hp, hp.mono hab]
      · simp [hp]
    rw [this l, this l', h]
  refine key ?_ h1
  show (4 : ℝ) ≤ 20 - (sight .two 1 musl + 10)
  cases musl <;> norm_num [sight, width]

end
end Verif.Props.RunEx
