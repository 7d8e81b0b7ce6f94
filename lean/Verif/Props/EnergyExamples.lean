import Verif.Props.EnergyRun
import Verif.Props.SpinExamples

set_option linter.unusedSectionVars false
set_option linter.unusedSimpArgs false
set_option linter.unusedVariables false

/-!
# C86: concrete runs, the default `flip_ratio`, and terrain objects that overlap
-/

namespace Verif.Props.RunEx
open Verif Matrix
noncomputable section

/-! ### runs of one step with slow particles -/

lemma slow_dt {v : ℝ} (h0 : 0 ≤ v) (hv : v ≤ 1 / 2) : chooseDt (cfg 1) 0 0 v = 1 := by
  have e1 : (cfg 1).dtMax = 1 := ex_dtMax (1 / 10) 1
  have e2 : (cfg 1).frameDt = 1 := ex_frameDt (1 / 10) 1
  have e3 : (cfg 1).finalTime = 1 := by
    show (exConfig (1 / 10) 1).finalTime = 1
    rw [ex_final]; simp
  have e4 : (cfg 1).minDt = 1 / 10 := rfl
  have e5 : (if |v| > 1 / 10 ^ 10 then min ((cfg 1).cfl * (cfg 1).dx / v) (cfg 1).dtMax else (cfg 1).dtMax) = 1 := by
    rw [e1]
    split_ifs with h
    · refine min_eq_right ?_
      have hp : 0 < v := lt_of_le_of_ne h0 fun e => by rw [← e] at h; norm_num at h
      rw [le_div_iff₀ hp]
      norm_num [cfg, exConfig]
      linarith
    · rfl
  simp only [chooseDt, e5, e2, e3, e4]
  norm_num

lemma only_begin_slow {R : Setup 2} (hC : R.C = cfg 1) {ps : List (Particle 2 ℝ)}
    (hne : ps ≠ []) (hv : ∀ p ∈ ps, p.v ⬝ᵥ p.v ≤ 1 / 4) (g : Fin 2 → ℝ) {pl : List (Plate 2)} :
    ∀ k s1, Reach R.C (physics R) g (begin R (start ps g pl)) k s1 → k = 0 := by
  intro k s1 hr
  induction hr with
  | start => rfl
  | @next k s1 s2 hr hlt hb ih =>
    subst ih
    exfalso
    cases hr
    have hw : (begin R (start ps g pl)).w.ps.map (fun p => p.v) = ps.map fun p => p.v := by
      rw [begin_w]
      unfold fillMuI
      by_cases hmi : R.S.P.useMibf = true
      · rw [if_pos hmi]; simp [start, Function.comp_def]
      · rw [if_neg hmi]; rfl
    have hfr : (begin R (start ps g pl)).frame = 0 := start_frame _
    obtain ⟨x, hx0, hx1, hsp⟩ : ∃ x, 0 ≤ x ∧ x ≤ 1 / 2 ∧
        maxSpeed ((physics R).velocities (begin R (start ps g pl)).w) = some x := by
      simp only [physics, hw]
      cases ps with
      | nil => exact absurd rfl hne
      | cons p ps =>
        simp only [maxSpeed, List.map_cons]
        obtain ⟨v, hv'⟩ : ∃ v, maxElement (p.v :: ps.map fun p => p.v) = some v := ⟨_, rfl⟩
        refine ⟨√(v ⬝ᵥ v), Real.sqrt_nonneg _, ?_, by rw [hv']; rfl⟩
        obtain ⟨h1, -⟩ := maxElement_spec hv'
        rw [← List.map_cons (f := fun p : Particle 2 ℝ => p.v), List.mem_map] at h1
        obtain ⟨q, hq, rfl⟩ := h1
        rw [Real.sqrt_le_left (by norm_num)]
        exact (hv q hq).trans (by norm_num)
    rcases loopBody_cases (C := R.C) (ph := physics R) (gf := g)
      (begin R (start ps g pl)) with h | ⟨_, _, _, _, _, h⟩ | ⟨dt, g', w, hu, hmin, -, hg, hst, h⟩
    · rw [h] at hb; cases hb
    · rw [h] at hb; cases hb
    simp only [updateDt, hsp, Option.map_some, Option.some.injEq, Prod.mk.injEq, begin_time, hfr] at hu
    have hdt : dt = 1 := by
      rw [← hu.1, hC]
      exact slow_dt hx0 hx1
    simp only at h
    rw [if_pos] at h
    · rw [h] at hb; cases hb
    · left
      rw [endOfFrame_time, begin_time, hdt, hC]
      have : (cfg 1).finalTime = 1 := by
        show (exConfig (1 / 10) 1).finalTime = 1
        rw [ex_final]; simp
      rw [this]
      norm_num [cfg, exConfig]

/-- The setting of `blended` with terrain objects. -/
def terrain (musl : Bool) (fr : ℝ) (objs : List (GenObject 2)) : Setup 2 := { blended musl fr with objs := objs }

variable {musl : Bool} {fr : ℝ} {objs : List (GenObject 2)} {ps : List (Particle 2 ℝ)} {g : Fin 2 → ℝ}
  {pl : List (Plate 2)}

lemma slow_run (hne : ps ≠ []) (hv : ∀ p ∈ ps, p.v ⬝ᵥ p.v ≤ 1 / 4) : ∃ t w,
    .particles 1 t w ∈ filesOf (runProgram (terrain musl fr objs) true false 10 (start ps g pl)) := by
  have hcrit := only_begin_slow (R := terrain musl fr objs) rfl hne hv g (pl := pl)
  obtain ⟨r, h1, -, t, w, h2, -⟩ := C61_completes (R := terrain musl fr objs) (s := start ps g pl) (deg := .two)
    (dx := 1) (fr := fr) (m := 3) (vol := 1) (i := true) (e := false) (fuel := 10)
    rfl one_pos rfl rfl hne (fun _ _ => by simp [terrain, blended, setup])
    (.inl (.inr (.inl ⟨Ex.mat_ok _, rfl⟩)))
    (.inr (.inl rfl)) rfl (by norm_num [terrain, blended, setup, cfg, exConfig]) (by norm_num)
    (by norm_num [terrain, blended, setup, cfg, exConfig])
    (by norm_num [terrain, blended, setup, cfg, exConfig]) rfl (by norm_num [terrain, blended, setup, cfg, exConfig])
    (fun k s1 hr hk => absurd (hcrit k s1 hr) hk.ne')
  refine ⟨t 1, w 1, ?_⟩
  rw [h1]
  show _ ∈ r.out
  rw [h2]
  simp [frameFiles, terrain, blended, setup, cfg, exConfig]

/-- The only step of these runs starts with the given particles; its nodes have integer coordinates. -/
lemma slow_step (hne : ps ≠ []) (hv : ∀ p ∈ ps, p.v ⬝ᵥ p.v ≤ 1 / 4) (hpos : ∀ p ∈ ps, ∀ a, ∃ k : ℤ, p.x a = k)
    {s1 : LoopState 2 (World 2)} {dt : ℝ} {g' : Fin 2 → ℝ} {w : World 2}
    (hst : StepOf (d := 0) (terrain musl fr objs) (start ps g pl) s1 dt g' w) :
    s1.w.ps = ps ∧ s1.w.plates = pl ∧ g' = g ∧ (∀ i, IsNode w.g i → ∀ a, ∃ k : ℤ, nodeAt w.g i a = k) ∧
      NoTinyWeights .two 1 w.g s1.w.ps := by
  obtain ⟨m0, h0, h1⟩ := run_lattice (d := 0) (R := terrain musl fr objs) (dx := 1) rfl one_pos rfl rfl hne hst
  have hg := hst.dt_ge.2
  obtain ⟨k, hr, -⟩ := hst
  have hk := only_begin_slow (R := terrain musl fr objs) rfl hne hv g k s1 hr
  subst hk
  cases hr
  have hw : (begin (d := 0) (terrain musl fr objs) (start ps g pl)).w.ps = ps := by
    rw [begin_w]; simp [fillMuI, terrain, blended, start, mkTransferParams]
  have hp : (begin (d := 0) (terrain musl fr objs) (start ps g pl)).w.plates = pl := by
    rw [begin_w]; simp [fillMuI, terrain, blended, start, mkTransferParams]
  have hm : ∀ a, ∃ j : ℤ, m0 a = j := by
    intro a
    rcases (h0 a).1 with ⟨x, hx, e⟩ | ⟨r, hr, _⟩
    · obtain ⟨q, hq, rfl⟩ := List.mem_map.mp hx
      obtain ⟨j, hj⟩ := hpos q hq a
      exact ⟨j, by rw [← e, hj]⟩
    · cases hr
  have hnode : ∀ i, IsNode w.g i → ∀ a, ∃ k : ℤ, nodeAt w.g i a = k := by
    intro j hj a
    obtain ⟨k, hk⟩ := h1 a _ (List.getElem_mem (hj a))
    obtain ⟨z, hz⟩ := hm a
    refine ⟨z + k, ?_⟩
    rw [nodeAt, List.getD_eq_getElem?_getD, List.getElem?_eq_getElem (hj a), Option.getD_some, hk, hz]
    push_cast; ring
  refine ⟨hw, hp, ?_, hnode, ?_⟩
  · rw [hg, begin_gravity, rampGravity]; rfl
  · rw [hw]
    intro q hq j hj
    have hN : ∀ a, N .two ((q.x a - nodeAt w.g j a) / 1) = 0 ∨ 1 / 8 ≤ N .two ((q.x a - nodeAt w.g j a) / 1) := by
      intro a
      obtain ⟨i, hi⟩ := hpos q hq a
      obtain ⟨z, hz⟩ := hnode j hj a
      have : (q.x a - nodeAt w.g j a) / 1 = ((i - z : ℤ) : ℝ) := by rw [hi, hz]; push_cast; ring
      rw [this]
      exact N2_int _
    simp only [shape, Fin.prod_univ_two]
    rcases hN 0 with h0 | h0
    · left; rw [h0, zero_mul]
    rcases hN 1 with h1 | h1
    · left; rw [h1, mul_zero]
    right
    have := mul_le_mul h0 h1 (by norm_num) (by linarith)
    refine lt_of_lt_of_le ?_ this
    norm_num

lemma twisted_pos {B : Matrix (Fin 2) (Fin 2) ℝ} : ∀ p ∈ twisted B, ∀ a, ∃ k : ℤ, p.x a = k := by
  intro p hp a
  simp only [twisted, List.mem_cons, List.not_mem_nil, or_false] at hp
  rcases hp with rfl | rfl
  · exact ⟨0, by simp [Particle.init]⟩
  · fin_cases a
    · exact ⟨1, by simp⟩
    · exact ⟨0, by simp⟩

lemma twisted_slow {B : Matrix (Fin 2) (Fin 2) ℝ} : ∀ p ∈ twisted B, p.v ⬝ᵥ p.v ≤ 1 / 4 := fun p hp => by
  rw [(twisted_rest p hp).1]; norm_num

/-- `C86_run` for a spinning pair on a rough floor, in any field of gravity. -/
example (G : Fin 2 → ℝ) : ∃ t w hist,
    .particles 1 t w ∈ filesOf (runProgram (blended false (-2)) true false 10
      (start (twisted !![0, -1; 1, 0]) G [floor])) ∧
    Steps (d := 0) (blended false (-2)) (start (twisted !![0, -1; 1, 0]) G [floor]) hist w ∧
      motionEnergy 3 4 w.ps ≤ 12 + G ⬝ᵥ (firstMoment 3 w.ps - ![3, 0]) -
        (hist.map (stressWork (d := 0) .two 1 1)).sum := by
  obtain ⟨t, w, hev⟩ := blended_run false (-2) !![0, -1; 1, 0] G [floor]
  obtain ⟨hist, h1, -, -, h2⟩ := C86_run (d := 0) (R := blended false (-2)) (s := start (twisted !![0, -1; 1, 0]) G [floor])
    (deg := .two) (dx := 1) (fr := -2) (m := 3) (vol := 1) rfl (by simp) one_pos (by norm_num) (.inl (by norm_num)) rfl rfl
    rfl (fun _ _ => by simp [blended, setup]) brake2
    (.inl ⟨rfl, fun p hp => by
      simp only [start, List.mem_singleton] at hp; subst hp; exact ⟨rfl, rfl, by norm_num [floor]⟩⟩)
    (fun _ _ _ _ h => (twisted_step false h).2.2.2.2) hev (by simp [start])
  refine ⟨t, w, hist, hev, h1, ?_⟩
  have h3 := h2 rfl
  have hκ : affineFactor .two (1 : ℝ) (-2) = 4 := by norm_num [affineFactor]
  rw [hκ] at h3
  have e1 : motionEnergy 3 4 (start (twisted !![0, -1; 1, 0]) G [floor]).w.ps = (12 : ℝ) := by
    simp [motionEnergy, start, twisted, Particle.init, ddot, Fin.sum_univ_two]
    norm_num
  have e2 : firstMoment 3 (start (twisted !![0, -1; 1, 0]) G [floor]).w.ps = (![3, 0] : Fin 2 → ℝ) := by
    simp [firstMoment, start, twisted, Particle.init]
  rw [e1, e2] at h3
  exact h3

/-! ### terrain objects that overlap -/

/-- A frictionless one-sided slope with normal `n`, reaching up to `c` along it. -/
def ramp (n : Fin 2 → ℝ) (c : ℝ) : GenObject 2 := ⟨.slipFree, 0, fun X => X ⬝ᵥ n ≤ c, fun _ => n⟩

/-- A shallow valley of two slopes. -/
def valley : List (GenObject 2) := [ramp ![3 / 5, 4 / 5] 9, ramp ![-3 / 5, 4 / 5] 9]

/-- At a node in the ground below both slopes, a velocity downwards becomes one that points up. -/
lemma valley_up {x dt : ℝ} (hx : 0 < x) (hdt : 0 < dt) {X : Fin 2 → ℝ} (h1 : X ⬝ᵥ ![3 / 5, 4 / 5] ≤ 9)
    (h2 : X ⬝ᵥ ![-3 / 5, 4 / 5] ≤ 9) {gf : ℕ → ℝ} {l : ℕ} :
    boundaryCollision plateOps2 false gf dt valley [] l X ![0, -x] = ![84 / 625 * x, 63 / 625 * x] := by
  have hn1 : (![0, -x] : Fin 2 → ℝ) ⬝ᵥ ![3 / 5, 4 / 5] = -(4 / 5 * x) := by simp [dotProduct, Fin.sum_univ_two]; ring
  have hn0 : (![0, -x] : Fin 2 → ℝ) ⬝ᵥ ![-3 / 5, 4 / 5] = -(4 / 5 * x) := by simp [dotProduct, Fin.sum_univ_two]; ring
  have hdx := mul_pos hdt hx
  have i1 : (ramp ![3 / 5, 4 / 5] 9).inside (X + dt • ![0, -x]) := by
    show (X + dt • ![0, -x]) ⬝ᵥ ![3 / 5, 4 / 5] ≤ 9
    rw [add_dotProduct, smul_dotProduct, hn1, smul_eq_mul]; linarith
  have i2 : (ramp ![-3 / 5, 4 / 5] 9).inside (X + dt • ![0, -x]) := by
    show (X + dt • ![0, -x]) ⬝ᵥ ![-3 / 5, 4 / 5] ≤ 9
    rw [add_dotProduct, smul_dotProduct, hn0, smul_eq_mul]; linarith
  have e1 : objectRel .slipFree 0 ![3 / 5, 4 / 5] ![0, -x] = ![12 / 25 * x, -(9 / 25 * x)] := by
    simp only [objectRel, hn1, gt_iff_lt, lt_irrefl, if_false]
    rw [if_pos (by linarith)]
    funext a; fin_cases a <;> simp <;> ring
  have hn2 : (![12 / 25 * x, -(9 / 25 * x)] : Fin 2 → ℝ) ⬝ᵥ ![-3 / 5, 4 / 5] = -(72 / 125 * x) := by
    simp [dotProduct, Fin.sum_univ_two]; ring
  have e2 : objectRel .slipFree 0 ![-3 / 5, 4 / 5] ![12 / 25 * x, -(9 / 25 * x)] = ![84 / 625 * x, 63 / 625 * x] := by
    simp only [objectRel, hn2, gt_iff_lt, lt_irrefl, if_false]
    rw [if_pos (by linarith)]
    funext a; fin_cases a <;> simp <;> ring
  unfold boundaryCollision
  show collideObjects _ _ valley _ = _
  rw [valley, collideObjects_cons (ramp ![3 / 5, 4 / 5] 9) _ i1, collideObjects_cons (ramp ![-3 / 5, 4 / 5] 9) _ i2]
  simp only [ramp, wallFriction, Bool.false_eq_true, if_false, e1, e2]
  rfl

lemma near_node {X x : Fin 2 → ℝ} (h : shape .two 1 X x ≠ 0) (a : Fin 2) : |x a - X a| < 3 / 2 := by
  have h0 : N .two ((x a - X a) / 1) ≠ 0 := fun e => h (by
    rw [shape2]
    fin_cases a
    · simp only [Fin.zero_eta] at e; rw [e, zero_mul]
    · simp only [Fin.mk_one] at e; rw [e, mul_zero])
  rw [div_one] at h0
  exact N2_far h0

lemma mass_pos {ps : List (Particle 2 ℝ)} {X : Fin 2 → ℝ} {p : Particle 2 ℝ} (hp : p ∈ ps)
    (h : 1 / 10 ^ 25 < shape .two 1 X p.x) : 0 < massAt .two 1 3 ps X := by
  refine mul_pos (by norm_num) (List.sum_pos _ ?_ ?_)
  · simp only [List.mem_map, List.mem_filter]
    rintro _ ⟨p, ⟨-, hp⟩, rfl⟩
    exact lt_of_le_of_lt (by positivity) (of_decide_eq_true hp)
  · intro hnil
    have : p ∈ ps.filter fun p => 1 / 10 ^ 25 < shape .two 1 X p.x := List.mem_filter.mpr ⟨hp, decide_eq_true h⟩
    rw [List.map_eq_nil_iff.mp hnil] at this
    cases this

lemma filter_sum {M : Type*} [AddCommMonoid M] {ps : List (Particle 2 ℝ)} {s : Particle 2 ℝ → ℝ} {f : Particle 2 ℝ → M}
    (h : ∀ p ∈ ps, s p = 0 ∨ 1 / 10 ^ 25 < s p) (hf : ∀ p ∈ ps, s p = 0 → f p = 0) :
    ((ps.filter fun p => 1 / 10 ^ 25 < s p).map f).sum = (ps.map f).sum := by
  induction ps with
  | nil => rfl
  | cons p ps ih =>
    have ih' := ih (fun q hq => h q (by simp [hq])) fun q hq => hf q (by simp [hq])
    rcases h p (by simp) with h0 | h0
    · rw [List.filter_cons_of_neg (by rw [h0]; norm_num), ih', List.map_cons, List.sum_cons, hf p (by simp) h0, zero_add]
    · rw [List.filter_cons_of_pos (by simpa using h0)]
      simp only [List.map_cons, List.sum_cons, ih']

lemma free_eq {ps : List (Particle 2 ℝ)} {g : Axes 2 ℝ} {fr D dt : ℝ} {grav : Fin 2 → ℝ} {i : Fin 2 → ℕ} (hi : IsNode g i)
    (hN : NoTinyWeights .two 1 g ps) : freeMomentum .two 1 fr D 3 1 dt grav ps (nodeAt g i) =
      (3 : ℝ) • (ps.map fun p => shape .two 1 (nodeAt g i) p.x •
        (p.v + if fr < 0 then D • (p.Bmat *ᵥ (nodeAt g i - p.x)) else 0)).sum -
      (dt * 1) • ((ps.filter fun p => 1 / 10 ^ 25 < shape .two 1 (nodeAt g i) p.x).map fun p =>
        p.tau *ᵥ shapeGrad .two 1 (nodeAt g i) p.x).sum + (dt * massAt .two 1 3 ps (nodeAt g i)) • grav := by
  simp only [freeMomentum]
  rw [filter_sum (s := fun p => shape .two 1 (nodeAt g i) p.x) (fun p hp => hN p hp i hi)
    (f := fun p => shape .two 1 (nodeAt g i) p.x • (p.v + if fr < 0 then D • (p.Bmat *ᵥ (nodeAt g i - p.x)) else 0))
    fun p _ h => by simp only [h, zero_smul]]

lemma no_stress {ps : List (Particle 2 ℝ)} {X : Fin 2 → ℝ} (h : ∀ p ∈ ps, p.tau = 0) :
    ((ps.filter fun p => 1 / 10 ^ 25 < shape .two 1 X p.x).map fun p => p.tau *ᵥ shapeGrad .two 1 X p.x).sum = 0 := by
  rw [List.map_congr_left (g := fun _ => 0)]
  · simp
  · intro p hp
    rw [h p (List.mem_of_mem_filter hp)]; simp

/-- **C86** is false where two terrain objects overlap: two particles at rest, without stress, in the ground below the
frictionless slopes of a shallow valley, *rise* in their first step, and their kinetic energy is more than the work of
gravity (which is negative); for APIC, with or without MUSL. -/
theorem C86_corner_false (musl : Bool) : ∃ t w,
    .particles 1 t w ∈ filesOf (runProgram (terrain musl (-2) valley) true false 10 (start (twisted 0) ![0, -1])) ∧
      (∀ p ∈ twisted 0, p.v = 0 ∧ p.tau = 0) ∧ firstMoment 3 (twisted 0) 1 < firstMoment 3 w.ps 1 ∧
      motionEnergy 3 4 (twisted 0) + ![0, -1] ⬝ᵥ (firstMoment 3 w.ps - firstMoment 3 (twisted 0)) <
        motionEnergy 3 4 w.ps := by
  obtain ⟨t, w, hev⟩ := slow_run (musl := musl) (fr := -2) (objs := valley) (g := ![0, -1]) (pl := [])
    (ps := twisted 0) (by simp [twisted]) twisted_slow
  refine ⟨t, w, hev, twisted_rest, ?_⟩
  suffices h : firstMoment 3 (twisted 0) 1 < firstMoment 3 w.ps 1 by
    refine ⟨h, ?_⟩
    have e1 : motionEnergy 3 4 (twisted 0) = (0 : ℝ) := by
      simp [motionEnergy, twisted, Particle.init, ddot]
    have e2 : (0 : ℝ) ≤ motionEnergy 3 4 w.ps := by
      refine List.sum_nonneg ?_
      simp only [List.mem_map]
      rintro _ ⟨p, -, rfl⟩
      have := ddot_self_nonneg p.Bmat
      have := dot_self_nonneg p.v
      positivity
    rw [e1]
    simp only [dotProduct, Fin.sum_univ_two, Pi.sub_apply, cons_val_zero, cons_val_one]
    linarith
  rcases run_particles (d := 0) hev (by simp [start]) with ⟨hh, -, -⟩ | ⟨s1, dt, g, hst, rfl⟩
  · cases hh
  obtain ⟨hps, hpl, rfl, hint, hN⟩ := slow_step (by simp [twisted]) twisted_slow twisted_pos hst
  have hgood : GoodGrid 1 w.g s1.w.ps := physStep_goodGrid (d := 0) (R := terrain musl (-2) valley) rfl one_pos rfl hst.phys
  obtain ⟨-, -, hstep⟩ := physStep_grid (d := 0) (R := terrain musl (-2) valley) (deg := .two) (dx := 1) rfl rfl rfl
    (fun _ => by simp [terrain, blended, setup]) hst.phys hgood
  obtain ⟨F, hF, hfree, hwall, hx, -, -⟩ := energy_step (d := 0) (S := (terrain musl (-2) valley).S) (deg := .two) (dx := 1)
    (fr := -2) (m := 3) (vol := 1) (mibf := false) (dt := dt)
    (grav := ![0, -1]) (bc := stepWalls (d := 0) (terrain musl (-2) valley) dt s1.w w)
    (plast := plastTotal (terrain musl (-2) valley) dt) (threads := (terrain musl (-2) valley).sched s1.step s1.w.ps)
    rfl (by simp) (by norm_num) (.inl (by norm_num)) rfl rfl hgood hN
    (by simp [terrain, blended, setup]) (plastTotal_keeps _ dt)
  have hw : w.ps = s1.w.ps.map F := Option.some.inj (hstep.symm.trans hF)
  have hdt : 0 < dt := lt_of_lt_of_le (by norm_num [terrain, blended, setup, cfg, exConfig]) hst.dt_ge.1
  rw [hps] at hfree hwall hx hgood hN hw
  simp only at hfree hwall hx
  have hb : ∀ i, IsNode w.g i → 0 < massAt .two 1 3 (twisted 0) (nodeAt w.g i) →
      beforeWalls (d := 0) (terrain musl (-2) valley).S .two 1 dt ![0, -1] w.g (twisted 0) (flatIndex w.g.size i) =
        ![0, -dt] := by
    intro i hi hpos
    have h1 := hfree i hi
    have h2 : freeMomentum .two 1 (-2) (affineFactor .two 1 (-2)) 3 1 dt ![0, -1] (twisted 0) (nodeAt w.g i) =
        (dt * massAt .two 1 3 (twisted 0) (nodeAt w.g i)) • ![0, -1] := by
      rw [free_eq hi hN, no_stress fun p hp => (twisted_rest p hp).2]
      simp [twisted, Particle.init]
    rw [h2] at h1
    refine smul_right_injective _ hpos.ne' (h1.trans ?_)
    funext a; fin_cases a <;> simp; ring
  have hv' : ∀ p ∈ twisted 0, (F p).x 1 = p.x 1 + dt * (63 / 625 * dt) := by
    intro p hp
    have hG := hgood.good (deg := .two) hp
    have e : ∑ i ∈ gridIndices w.g, shape .two 1 (nodeAt w.g i) p.x •
        (stepEuler (d := 0) (terrain musl (-2) valley).S .two 1 dt ![0, -1]
          (stepWalls (d := 0) (terrain musl (-2) valley) dt s1.w w) w.g (twisted 0)).v (flatIndex w.g.size i) =
        ∑ i ∈ gridIndices w.g, shape .two 1 (nodeAt w.g i) p.x • ![84 / 625 * dt, 63 / 625 * dt] := by
      refine Finset.sum_congr rfl fun i hi => ?_
      have hi' := mem_gridIndices.mp hi
      rcases hN p hp i hi' with h | h
      · rw [h, zero_smul, zero_smul]
      · have hpos := mass_pos hp h
        have hwl := hwall i hi' hpos
        rw [hwl, hb i hi' hpos, stepWalls, hpl]
        have hX : ∀ a, |p.x a - nodeAt w.g i a| < 3 / 2 := near_node (lt_trans (by positivity) h).ne'
        have hxa : ∀ a, 0 ≤ p.x a ∧ p.x a ≤ 1 := by
          intro a
          simp only [twisted, List.mem_cons, List.not_mem_nil, or_false] at hp
          rcases hp with rfl | rfl
          · simp [Particle.init]
          · fin_cases a <;> simp
        have hb0 := abs_lt.mp (hX 0)
        have hb1 := abs_lt.mp (hX 1)
        have h0 := hxa 0
        have h1 := hxa 1
        congr 1
        refine valley_up hdt hdt ?_ ?_ <;> simp only [dotProduct, Fin.sum_univ_two, cons_val_zero, cons_val_one] <;>
          linarith
    rw [hx p hp, e, ← hG.sum_nodes (fun i => shape .two 1 (nodeAt w.g i) p.x • ![84 / 625 * dt, 63 / 625 * dt])
      fun i _ h0 => by rw [h0, zero_smul]]
    rw [← Finset.sum_smul]
    have : ∑ c, shape .two 1 (nodeAt w.g ((stencilOf .two 1 w.g p.x).node c)) p.x = 1 := by
      refine (Finset.sum_congr rfl fun c _ => ?_).trans hG.ok.sum_weight
      rw [hG.weight c, hG.pos c]
    rw [this]
    simp
  have hpos : 0 < dt * (63 / 625 * dt) := by positivity
  have m1 := hv' { Particle.init with Bmat := 0 } (by simp [twisted])
  have m2 := hv' { Particle.init with x := ![1, 0] } (by simp [twisted])
  rw [hw]
  simp only [firstMoment, twisted, List.map_cons, List.map_nil, List.sum_cons, List.sum_nil, add_zero, Pi.add_apply,
    Pi.smul_apply, smul_eq_mul] at m1 m2 ⊢
  rw [m1, m2]
  linarith

/-! ### the default `flip_ratio` -/

/-- Two particles next to each other that move past each other. -/
def opposed : List (Particle 2 ℝ) :=
  [{ Particle.init with v := ![0, 1 / 2] }, { Particle.init with x := ![1, 0], v := ![0, -(1 / 2)] }]

lemma opposed_slow : ∀ p ∈ opposed, p.v ⬝ᵥ p.v ≤ 1 / 4 := by
  intro p hp
  simp only [opposed, List.mem_cons, List.not_mem_nil, or_false] at hp
  rcases hp with rfl | rfl <;> norm_num [dotProduct, Fin.sum_univ_two]

lemma opposed_pos : ∀ p ∈ opposed, ∀ a, ∃ k : ℤ, p.x a = k := by
  intro p hp a
  simp only [opposed, List.mem_cons, List.not_mem_nil, or_false] at hp
  rcases hp with rfl | rfl
  · exact ⟨0, by simp [Particle.init]⟩
  · fin_cases a
    · exact ⟨1, by simp⟩
    · exact ⟨0, by simp⟩

lemma opposed_free : ∀ p ∈ opposed, p.Bmat = 0 ∧ p.tau = 0 := by
  intro p hp
  simp only [opposed, List.mem_cons, List.not_mem_nil, or_false] at hp
  rcases hp with rfl | rfl <;> exact ⟨rfl, rfl⟩

/-- Without force the nodes get the mean velocity of the particles around, and no increment. -/
lemma opposed_nodes {S : StepParams (0 + 2) ℝ} {fr dt : ℝ} (hS : S.P = mkTransferParams .two 1 fr false 3 1)
    {g : Axes 2 ℝ} (h : GoodGrid 1 g opposed) (hN : NoTinyWeights .two 1 g opposed)
    {bc : ℕ → (Fin 2 → ℝ) → (Fin 2 → ℝ) → (Fin 2 → ℝ)} (hbc : Untouched g bc) {i : Fin 2 → ℕ} (hi : IsNode g i) :
    let e := stepEuler (d := 0) S .two 1 dt 0 bc g opposed
    e.flip (flatIndex g.size i) = 0 ∧
      (shape .two 1 (nodeAt g i) 0 + shape .two 1 (nodeAt g i) ![1, 0]) * e.v (flatIndex g.size i) 1 =
        (shape .two 1 (nodeAt g i) 0 - shape .two 1 (nodeAt g i) ![1, 0]) / 2 := by
  intro e
  have hm : (0 : ℝ) < 3 := by norm_num
  have hP : S.P.deg = .two := by rw [hS]; rfl
  have hP1 : S.P.oneOverDx = 1 / 1 := by rw [hS]; rfl
  obtain ⟨n1, n2⟩ := node_values (d := 0) (dt := dt) (grav := 0) hS hm h hi
  obtain ⟨arr, ha, hnode⟩ := C54_p2g_nodes (deg := .two) (fr := fr) (m := 3) (vol := 1) (mibf := false)
    (threads := [opposed]) (by simpa using h)
  have harr : arr = p2gFinish S.P (raw S.P .two 1 g opposed) := by
    have := P2G_eq (P := S.P) (deg := .two) (ts := [opposed]) hP hP1 (by simpa using h)
    rw [hS, ha] at this
    rw [Option.some.inj this, hS]
    simp
  obtain ⟨-, c2, -, -⟩ := hnode i hi
  simp only [List.flatten_cons, List.flatten_nil, List.append_nil] at c2
  rw [harr] at c2
  have hforce : (p2gFinish S.P (raw S.P .two 1 g opposed) (flatIndex g.size i)).force = 0 := by
    rw [c2, List.map_congr_left (g := fun _ => 0)]
    · simp
    · intro p hp
      rw [(opposed_free p (List.mem_of_mem_filter hp)).2]
      simp
  have hinc : incrAt S.P dt 0 (p2gFinish S.P (raw S.P .two 1 g opposed) (flatIndex g.size i)) = 0 := by
    simp [incrAt, hforce]
  have hat := eulerUpdate_at S.P dt 0 bc g (p2gFinish S.P (raw S.P .two 1 g opposed)) (i := i) hi
  simp only [hinc, add_zero] at hat
  rw [hbc i hi] at hat
  simp only [sub_self, ite_self] at hat
  refine ⟨hat.2, ?_⟩
  rw [show e.v _ = _ from hat.1]
  simp only [beforeWalls, hinc, add_zero] at n2
  have n3 := congrFun n2 1
  rw [free_eq hi hN, no_stress fun p hp => (opposed_free p hp).2] at n3
  have hmass : massAt .two 1 3 opposed (nodeAt g i) =
      3 * (shape .two 1 (nodeAt g i) 0 + shape .two 1 (nodeAt g i) ![1, 0]) := by
    unfold massAt
    rw [filter_sum (s := fun p => shape .two 1 (nodeAt g i) p.x) (fun p hp => hN p hp i hi)
      (f := fun p => shape .two 1 (nodeAt g i) p.x) fun p _ h => h]
    simp [opposed, Particle.init]
  rw [hmass] at n3
  have e1 : (List.map (fun p => shape .two 1 (nodeAt g i) p.x •
      (p.v + if fr < 0 then S.P.apicDinverse • (p.Bmat *ᵥ (nodeAt g i - p.x)) else 0)) opposed).sum 1 =
      (shape .two 1 (nodeAt g i) 0 - shape .two 1 (nodeAt g i) ![1, 0]) / 2 := by
    simp [opposed, Particle.init]
    ring
  simp only [Pi.add_apply, Pi.sub_apply, Pi.smul_apply, e1, smul_eq_mul, Pi.zero_apply] at n3
  linarith

/-- Velocity of the nodes near one of the particles, as a quadratic function of their `x`. -/
lemma opposed_value {X : Fin 2 → ℝ} {k : ℤ} (hk : X 0 = k) {v : ℝ}
    (hv : (shape .two 1 X 0 + shape .two 1 X ![1, 0]) * v = (shape .two 1 X 0 - shape .two 1 X ![1, 0]) / 2) :
    (shape .two 1 X 0 ≠ 0 → v = 5 / 14 - 3 / 7 * X 0 - 2 / 7 * X 0 ^ 2 ∧ (X 0 = -1 ∨ X 0 = 0 ∨ X 0 = 1)) ∧
    (shape .two 1 X ![1, 0] ≠ 0 → v = -(5 / 14) - 3 / 7 * (X 0 - 1) + 2 / 7 * (X 0 - 1) ^ 2 ∧
      (X 0 - 1 = -1 ∨ X 0 - 1 = 0 ∨ X 0 - 1 = 1)) := by
  have s0 : shape .two 1 X 0 = N .two (0 - X 0) * N .two (0 - X 1) := by rw [shape2]; simp
  have s1 : shape .two 1 X ![1, 0] = N .two (1 - X 0) * N .two (0 - X 1) := by rw [shape2]; simp
  have hb0 := near_node (X := X) (x := 0)
  have hb1 := near_node (X := X) (x := ![1, 0])
  set y := N .two (0 - X 1) with hy
  have val : ∀ a b : ℝ, N .two (0 - X 0) = a → N .two (1 - X 0) = b → y ≠ 0 → (a + b) * v = (a - b) / 2 := by
    intro a b ha hb h0
    rw [s0, s1, ha, hb] at hv
    have : y * ((a + b) * v) = y * ((a - b) / 2) := by linarith
    exact mul_left_cancel₀ h0 this
  constructor
  · intro h
    have h0 := hb0 h 0
    rw [hk] at h0 ⊢
    simp only [Pi.zero_apply] at h0
    rw [abs_lt] at h0
    have hy0 : y ≠ 0 := fun e => h (by rw [s0, e, mul_zero])
    have hl : (-2 : ℝ) < k := by linarith
    have hu : (k : ℝ) < 2 := by linarith
    have hl' : -2 < k := by exact_mod_cast hl
    have hu' : k < 2 := by exact_mod_cast hu
    have hcases : k = -1 ∨ k = 0 ∨ k = 1 := by omega
    rcases hcases with rfl | rfl | rfl
    · have := val (1 / 8) 0 (by rw [hk]; norm_num [N, N2]) (by rw [hk]; norm_num [N, N2]) hy0
      refine ⟨by push_cast; linarith, .inl (by simp)⟩
    · have := val (3 / 4) (1 / 8) (by rw [hk]; norm_num [N, N2]) (by rw [hk]; norm_num [N, N2]) hy0
      refine ⟨by push_cast; linarith, .inr (.inl (by simp))⟩
    · have := val (1 / 8) (3 / 4) (by rw [hk]; norm_num [N, N2]) (by rw [hk]; norm_num [N, N2]) hy0
      refine ⟨by push_cast; linarith, .inr (.inr (by simp))⟩
  · intro h
    have h0 := hb1 h 0
    rw [hk] at h0 ⊢
    simp only [cons_val_zero] at h0
    rw [abs_lt] at h0
    have hy0 : y ≠ 0 := fun e => h (by rw [s1, e, mul_zero])
    have hl : (-1 : ℝ) < k := by linarith
    have hu : (k : ℝ) < 3 := by linarith
    have hl' : -1 < k := by exact_mod_cast hl
    have hu' : k < 3 := by exact_mod_cast hu
    have hcases : k = 0 ∨ k = 1 ∨ k = 2 := by omega
    rcases hcases with rfl | rfl | rfl
    · have := val (3 / 4) (1 / 8) (by rw [hk]; norm_num [N, N2]) (by rw [hk]; norm_num [N, N2]) hy0
      refine ⟨by push_cast; linarith, .inl (by simp)⟩
    · have := val (1 / 8) (3 / 4) (by rw [hk]; norm_num [N, N2]) (by rw [hk]; norm_num [N, N2]) hy0
      refine ⟨by push_cast; linarith, .inr (.inl (by simp))⟩
    · have := val 0 (1 / 8) (by rw [hk]; norm_num [N, N2]) (by rw [hk]; norm_num [N, N2]) hy0
      refine ⟨by push_cast; linarith, .inr (.inr (by norm_num))⟩

/-- Mean and first moment of a quadratic function on three neighbouring nodes. -/
lemma quadratic_moments {ι : Type*} [Fintype ι] {w y r : ι → ℝ} {a b c D : ℝ} (h1 : ∑ i, w i = 1)
    (h2 : ∑ i, w i * r i = 0) (h3 : ∑ i, w i * r i * r i = D)
    (hy : ∀ i, w i ≠ 0 → y i = a + b * r i + c * r i ^ 2 ∧ (r i = -1 ∨ r i = 0 ∨ r i = 1)) :
    ∑ i, w i * y i = a + c * D ∧ ∑ i, w i * (y i * r i) = b * D := by
  constructor
  · have : ∀ i, w i * y i = a * w i + b * (w i * r i) + c * (w i * r i * r i) := by
      intro i
      by_cases h : w i = 0
      · rw [h]; ring
      · rw [(hy i h).1]; ring
    simp only [this, Finset.sum_add_distrib, ← Finset.mul_sum, h1, h2, h3]
    ring
  · have : ∀ i, w i * (y i * r i) = (a + c) * (w i * r i) + b * (w i * r i * r i) := by
      intro i
      by_cases h : w i = 0
      · rw [h]; ring
      · obtain ⟨e, hr⟩ := hy i h
        rw [e]
        rcases hr with hr | hr | hr <;> rw [hr] <;> ring
    simp only [this, Finset.sum_add_distrib, ← Finset.mul_sum, h2, h3]
    ring

/-- **C86** is false for the default `flip_ratio = -0.95`: the kinetic energy (with that of the affine motion) of two
particles that move past each other grows in their first step, without stress, gravity and walls, with or without
MUSL: most of their velocity is kept as in FLIP, and the affine matrices are filled from the grid in addition. -/
theorem C86_default_false (musl : Bool) : ∃ t w,
    .particles 1 t w ∈ filesOf (runProgram (blended musl (-19 / 20)) true false 10 (start opposed 0)) ∧
      (∀ p ∈ opposed, p.tau = 0) ∧
      motionEnergy 3 (affineFactor .two 1 (-19 / 20)) opposed <
        motionEnergy 3 (affineFactor .two 1 (-19 / 20)) w.ps := by
  obtain ⟨t, w, hev⟩ := slow_run (musl := musl) (fr := -19 / 20) (objs := []) (g := 0) (pl := [])
    (ps := opposed) (by simp [opposed]) opposed_slow
  refine ⟨t, w, hev, fun p hp => (opposed_free p hp).2, ?_⟩
  have hκ : affineFactor .two (1 : ℝ) (-19 / 20) = 4 := by norm_num [affineFactor]
  rw [hκ]
  rcases run_particles (d := 0) hev (by simp [start]) with ⟨hh, -, -⟩ | ⟨s1, dt, g, hst, rfl⟩
  · cases hh
  obtain ⟨hps, hpl, rfl, hint, hN⟩ := slow_step (by simp [opposed]) opposed_slow opposed_pos hst
  have hgood : GoodGrid 1 w.g s1.w.ps :=
    physStep_goodGrid (d := 0) (R := terrain musl (-19 / 20) []) rfl one_pos rfl hst.phys
  obtain ⟨-, -, hstep⟩ := physStep_grid (d := 0) (R := terrain musl (-19 / 20) []) (deg := .two) (dx := 1) rfl rfl rfl
    (fun _ => by simp [terrain, blended, setup]) hst.phys hgood
  have hun : Untouched w.g (stepWalls (d := 0) (terrain musl (-19 / 20) []) dt s1.w w) := by
    intro i _ v
    rw [stepWalls, hpl]; rfl
  rw [hps] at hgood hN hstep
  obtain ⟨F, hF, hF2⟩ := stepOnGrid_eq (d := 0) (S := (terrain musl (-19 / 20) []).S) (dt := dt) (grav := 0)
    (bc := stepWalls (d := 0) (terrain musl (-19 / 20) []) dt s1.w w)
    (plast := plastTotal (terrain musl (-19 / 20) []) dt)
    (threads := (terrain musl (-19 / 20) []).sched s1.step opposed) (deg := .two) (dx := 1) rfl rfl hgood
    (by simp [terrain, blended, setup]) (plastTotal_keeps _ dt)
  have hw : w.ps = opposed.map F := Option.some.inj (hstep.symm.trans hF)
  set e := stepEuler (d := 0) (terrain musl (-19 / 20) []).S .two 1 dt 0
    (stepWalls (d := 0) (terrain musl (-19 / 20) []) dt s1.w w) w.g opposed with he
  have hnodes := fun i (hi : IsNode w.g i) => opposed_nodes (S := (terrain musl (-19 / 20) []).S) (dt := dt)
    (fr := -19 / 20) rfl hgood hN hun hi
  have key : ∀ p ∈ opposed, ∀ a c : ℝ,
      (∀ i, IsNode w.g i → shape .two 1 (nodeAt w.g i) p.x ≠ 0 →
        e.v (flatIndex w.g.size i) 1 = a + (-3 / 7) * (nodeAt w.g i 0 - p.x 0) + c * (nodeAt w.g i 0 - p.x 0) ^ 2 ∧
          (nodeAt w.g i 0 - p.x 0 = -1 ∨ nodeAt w.g i 0 - p.x 0 = 0 ∨ nodeAt w.g i 0 - p.x 0 = 1)) →
      (F p).v 1 = 19 / 20 * p.v 1 + 1 / 20 * (a + c * (1 / 4)) ∧ (F p).Bmat 1 0 = -3 / 7 * (1 / 4) := by
    intro p hp a c hval
    have hG := hgood.good (deg := .two) hp
    set st := stencilOf .two 1 w.g p.x with hst'
    have hnd : ∀ c, IsNode w.g (st.node c) := fun c => hG.ok.node_lt c
    have h3 := hG.ok.sum_weight_pos_pos (hG.grad2 rfl) 0 0
    rw [if_pos rfl] at h3
    obtain ⟨m1, m2⟩ := quadratic_moments (y := fun k => e.v (flatIndex w.g.size (st.node k)) 1) (a := a)
      (b := -3 / 7) (c := c) hG.ok.sum_weight (hG.ok.sum_weight_pos 0) h3 (fun k hk => by
        have := hval (st.node k) (hnd k) (by
          rw [hG.weight k, hG.pos k] at hk
          exact hk)
        rw [hG.pos k]
        exact this)
    have hfl : interpV w.g.size e.flip st = 0 := by
      rw [interpV_eq]
      exact Finset.sum_eq_zero fun k _ => by rw [(hnodes _ (hnd k)).1, smul_zero]
    obtain ⟨f1, -, f3, -⟩ := hF2 p hp
    have hP : (terrain musl (-19 / 20) []).S.P.flipRatio = -19 / 20 := rfl
    constructor
    · rw [f1]
      simp only [blendVelocity, hP, g2pTransfer]
      rw [if_neg (by norm_num), if_pos (by norm_num), if_pos (by norm_num)]
      have hI : interpV w.g.size e.v st 1 = a + c * (1 / 4) := by
        rw [interpV_eq]
        simp only [Finset.sum_apply, Pi.smul_apply, smul_eq_mul]
        rw [m1]
        norm_num
      simp only [Pi.add_apply, Pi.smul_apply, smul_eq_mul, ← he, ← hst', hfl, hI, Pi.zero_apply]
      ring
    · rw [f3]
      simp only [g2pTransfer, hP]
      rw [if_pos (by norm_num), interpB_eq]
      simp only [Matrix.sum_apply, Matrix.smul_apply, vecMulVec_apply, smul_eq_mul, Pi.sub_apply]
      refine m2.trans ?_
      norm_num
  have k1 := key { Particle.init with v := ![0, 1 / 2] } (by simp [opposed]) (5 / 14) (-(2 / 7)) (fun i hi h => by
    obtain ⟨k, hk⟩ := hint i hi 0
    obtain ⟨a1, a2⟩ := (opposed_value hk (hnodes i hi).2).1 h
    simp only [Particle.init, Pi.zero_apply, sub_zero]
    exact ⟨by rw [a1]; ring, a2⟩)
  have k2 := key { Particle.init with x := ![1, 0], v := ![0, -(1 / 2)] } (by simp [opposed]) (-(5 / 14)) (2 / 7)
    (fun i hi h => by
      obtain ⟨k, hk⟩ := hint i hi 0
      obtain ⟨a1, a2⟩ := (opposed_value hk (hnodes i hi).2).2 h
      simp only [cons_val_zero]
      exact ⟨by rw [a1]; ring, a2⟩)
  simp only [cons_val_one] at k1 k2
  have low : ∀ q : Particle 2 ℝ, q.v 1 ^ 2 + 4 * q.Bmat 1 0 ^ 2 ≤ q.v ⬝ᵥ q.v + 4 * ddot q.Bmat q.Bmat := by
    intro q
    simp only [dotProduct, ddot, Fin.sum_univ_two]
    nlinarith [mul_self_nonneg (q.v 0), mul_self_nonneg (q.Bmat 0 0), mul_self_nonneg (q.Bmat 0 1),
      mul_self_nonneg (q.Bmat 1 1)]
  have l1 := low (F { Particle.init with v := ![0, 1 / 2] })
  have l2 := low (F { Particle.init with x := ![1, 0], v := ![0, -(1 / 2)] })
  rw [k1.1, k1.2] at l1
  rw [k2.1, k2.2] at l2
  have e0 : motionEnergy 3 4 opposed = (3 / 4 : ℝ) := by
    simp [motionEnergy, opposed, Particle.init, ddot, dotProduct, Fin.sum_univ_two]
    norm_num
  rw [e0, hw]
  simp only [motionEnergy, opposed, List.map_cons, List.map_nil, List.sum_cons, List.sum_nil, add_zero]
  refine lt_of_lt_of_le ?_ (add_le_add (mul_le_mul_of_nonneg_left l1 (by norm_num : (0 : ℝ) ≤ 3 / 2))
    (mul_le_mul_of_nonneg_left l2 (by norm_num : (0 : ℝ) ≤ 3 / 2)))
  norm_num

end
end Verif.Props.RunEx
