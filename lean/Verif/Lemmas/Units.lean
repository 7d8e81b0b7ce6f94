import Verif.Lemmas.Simulate
import Verif.Props.Transfer
import Verif.Props.Order

set_option linter.unusedSimpArgs false
set_option linter.unusedVariables false
set_option linter.unusedSectionVars false

/-!
# Conversion of all quantities to other units

The conversion factors of length, time, stress and particle volume are chosen freely; those of the other
quantities follow from their physical dimension. A further factor `q` belongs to the convention by which the
shear stress `q` is computed from the stress deviator (`q_prefac`).
-/

namespace Verif
open Matrix

/-- Conversion factors: a length `l` becomes `len * l`, and so on. -/
structure Scales where
  len : ℝ
  time : ℝ
  stress : ℝ
  vol : ℝ
  q : ℝ
  len_pos : 0 < len
  time_pos : 0 < time
  stress_pos : 0 < stress
  vol_pos : 0 < vol
  q_pos : 0 < q

namespace Scales
variable (U : Scales) {d : ℕ}

/-- velocity -/
noncomputable def speed : ℝ := U.len / U.time
/-- acceleration -/
noncomputable def acc : ℝ := U.len / (U.time * U.time)
/-- density: stress divided by velocity squared -/
noncomputable def dens : ℝ := U.stress * (U.time * U.time) / (U.len * U.len)
/-- mass: density times volume -/
noncomputable def mass : ℝ := U.stress * (U.time * U.time) / (U.len * U.len) * U.vol

/-- A particle in other units. -/
noncomputable def particle (p : Particle d ℝ) : Particle d ℝ where
  x := U.len • p.x
  v := U.speed • p.v
  pic := U.speed • p.pic
  flip := U.speed • p.flip
  F := p.F
  Bmat := (U.speed * U.len) • p.Bmat
  tau := U.stress • p.tau
  epsPlDev := p.epsPlDev
  epsPlVol := p.epsPlVol
  epsPlVolPradhana := p.epsPlVolPradhana
  deltaGamma := p.deltaGamma / (U.q * U.time)
  viscosity := U.stress * U.time * p.viscosity
  muI := p.muI

/-- Grid coordinates in other units. -/
noncomputable def axes (g : Axes d ℝ) : Axes d ℝ := fun a => (g a).map (U.len * ·)

/-- The remembered box in other units. -/
noncomputable def box (b : AxisInit ℝ) : AxisInit ℝ :=
  ⟨U.len * b.minInit, U.len * b.maxInit, U.len * b.lowInit, U.len * b.highInit⟩

/-- A plate in other units; the time after which a plate has its full speed is given as a number of frames. -/
noncomputable def plate (p : Plate d) : Plate d :=
  { p with
    pos := U.len * p.pos
    lower := U.len * p.lower
    upper := U.len * p.upper
    vel := U.speed • p.vel
    velOrig := U.speed • p.velOrig }

/-- An object of the same shape in other units. -/
noncomputable def object (o : GenObject d) : GenObject d :=
  { o with
    inside := fun X => o.inside (U.len⁻¹ • X)
    normal := fun X => o.normal (U.len⁻¹ • X) }

/-- The state of a simulation in other units. -/
noncomputable def world (w : World d) : World d where
  ps := w.ps.map U.particle
  box := w.box.map fun b a => U.box (b a)
  g := U.axes w.g
  plates := w.plates.map U.plate
  mass := fun l => U.mass * w.mass l
  vel := fun l => U.speed • w.vel l
  friction := w.friction

/-- Material parameters in other units and for another convention of `q`. -/
noncomputable def material (m : Material) : Material :=
  { m with
    E := U.stress * m.E
    stressTol := U.stress * m.stressTol
    qMax := U.q * U.stress * m.qMax
    qMin := U.q * U.stress * m.qMin
    pMin := U.stress * m.pMin
    M := U.q * m.M
    qCohesion := U.q * U.stress * m.qCohesion
    viscTime := (if m.useDuvautLions then 1 else U.q) * U.time * m.viscTime
    p0 := U.stress * m.p0
    rhoS := U.dens * m.rhoS
    grainDiameter := U.len * m.grainDiameter
    qPrefac := U.q * m.qPrefac }

/-- Constants of the transfers in other units. -/
noncomputable def params (P : TransferParams ℝ) : TransferParams ℝ :=
  { P with
    dx := U.len * P.dx
    oneOverDx := P.oneOverDx / U.len
    apicDinverse := P.apicDinverse / (U.len * U.len)
    particleMass := U.mass * P.particleMass
    particleVolume := U.vol * P.particleVolume }

/-- Constants of the time control in other units. -/
noncomputable def times (C : TimeConfig d) : TimeConfig d :=
  { C with
    gravityTime := U.time * C.gravityTime
    minDt := U.time * C.minDt
    fps := C.fps / U.time
    rho := U.dens * C.rho
    E := U.stress * C.E
    dx := U.len * C.dx }

/-- The set-up in other units. -/
noncomputable def setup (R : Setup d) : Setup d :=
  { R with
    C := U.times R.C
    S := { R.S with P := U.params R.S.P, L := U.len • R.S.L, ref := R.S.ref.map (U.len • ·) }
    m := U.material R.m
    objs := R.objs.map U.object }

lemma len_ne : U.len ≠ 0 := U.len_pos.ne'
lemma time_ne : U.time ≠ 0 := U.time_pos.ne'
lemma stress_ne : U.stress ≠ 0 := U.stress_pos.ne'
lemma vol_ne : U.vol ≠ 0 := U.vol_pos.ne'
lemma q_ne : U.q ≠ 0 := U.q_pos.ne'
lemma speed_pos : 0 < U.speed := div_pos U.len_pos U.time_pos
lemma acc_pos : 0 < U.acc := div_pos U.len_pos (mul_pos U.time_pos U.time_pos)
lemma dens_pos : 0 < U.dens :=
  div_pos (mul_pos U.stress_pos (mul_pos U.time_pos U.time_pos)) (mul_pos U.len_pos U.len_pos)
lemma mass_pos : 0 < U.mass := mul_pos U.dens_pos U.vol_pos

end Scales

/-! ### the time control -/

section time
variable {d : ℕ} (U : Scales)

/-- A file in other units. -/
def Event.scale {W W' : Type*} (f : W → W') (c : ℝ) : Event W → Event W'
  | .info => .info
  | .particles n t w => .particles n (c * t) (f w)
  | .grid n t w => .grid n (c * t) (f w)
  | .timing k => .timing k

/-- The loop variables in other units: worlds by `f`, times by the factor `c`, gravity by the factor `a`. -/
def LoopState.scale {W W' : Type*} (f : W → W') (c a : ℝ) (s : LoopState d W) : LoopState d W' :=
  ⟨f s.w, c * s.time, s.frame, s.step, a • s.gravity, s.out.map (Event.scale f c)⟩

/-- The same end of a run in other units. -/
def Result.scale {W W' : Type*} (f : W → W') (c a : ℝ) : Result d W → Result d W'
  | .refused s => .refused (s.scale f c a)
  | .finished s => .finished (s.scale f c a)
  | .failed s => .failed (s.scale f c a)
  | .ub => .ub
  | .outOfFuel s => .outOfFuel (s.scale f c a)

/-- The same for one iteration. -/
def Next.scale {W W' : Type*} (f : W → W') (c a : ℝ) : Next d W → Next d W'
  | .cont s => .cont (s.scale f c a)
  | .brk s => .brk (s.scale f c a)
  | .fail s => .fail (s.scale f c a)
  | .ub => .ub

lemma ite_conv {α β : Type*} {c c' : Prop} [Decidable c] [Decidable c'] {f : α → β} {a b : α} {a' b' : β}
    (h : c' ↔ c) (ha : c → a' = f a) (hb : ¬ c → b' = f b) :
    (if c' then a' else b') = f (if c then a else b) := by
  by_cases hc : c
  · rw [if_pos hc, if_pos (h.mpr hc), ha hc]
  · rw [if_neg hc, if_neg (fun h' => hc (h.mp h')), hb hc]

lemma waveSpeed_scale (C : TimeConfig d) : (U.times C).waveSpeed = U.speed * C.waveSpeed := by
  have h : U.stress * C.E / (U.dens * C.rho) = U.speed * U.speed * (C.E / C.rho) := by
    have := U.len_ne; have := U.time_ne; have := U.stress_ne
    unfold Scales.dens Scales.speed
    by_cases hr : C.rho = 0
    · simp [hr]
    · field_simp
  show √(U.stress * C.E / (U.dens * C.rho)) = U.speed * √(C.E / C.rho)
  rw [h, Real.sqrt_mul (mul_self_nonneg _), Real.sqrt_mul_self U.speed_pos.le]

lemma dtMax_scale (C : TimeConfig d) : (U.times C).dtMax = U.time * C.dtMax := by
  have := U.len_ne; have := U.time_ne
  rw [TimeConfig.dtMax, TimeConfig.dtMax, waveSpeed_scale]
  show C.cflElastic * (U.len * C.dx) / (U.speed * C.waveSpeed) = _
  by_cases hw : C.waveSpeed = 0
  · simp [hw]
  · unfold Scales.speed; field_simp

lemma frameDt_scale (C : TimeConfig d) : (U.times C).frameDt = U.time * C.frameDt := by
  have := U.time_ne
  show 1 / (C.fps / U.time) = U.time * (1 / C.fps)
  by_cases hf : C.fps = 0
  · simp [hf]
  · field_simp

lemma finalTime_scale (C : TimeConfig d) : (U.times C).finalTime = U.time * C.finalTime := by
  rw [TimeConfig.finalTime, TimeConfig.finalTime, frameDt_scale]
  show (C.endFrame : ℝ) * _ = _
  ring

lemma maxElement_scale {c : ℝ} (hc : 0 < c) (vs : List (Fin d → ℝ)) :
    maxElement (vs.map (c • ·)) = (maxElement vs).map (c • ·) := by
  cases vs with
  | nil => rfl
  | cons v vs =>
    simp only [maxElement, List.map_cons, Option.map_some, Option.some.injEq]
    induction vs generalizing v with
    | nil => rfl
    | cons w vs ih =>
      rw [List.map_cons, List.foldl_cons, List.foldl_cons, ← ih]
      congr 1
      refine ite_conv (f := (c • ·)) ?_ (fun _ => rfl) (fun _ => rfl)
      rw [smul_dotProduct, smul_dotProduct, dotProduct_smul, dotProduct_smul, smul_smul, smul_smul, smul_eq_mul, smul_eq_mul]
      exact mul_lt_mul_iff_right₀ (mul_pos hc hc)

lemma maxSpeed_scale {c : ℝ} (hc : 0 < c) (vs : List (Fin d → ℝ)) :
    maxSpeed (vs.map (c • ·)) = (maxSpeed vs).map (c * ·) := by
  rw [maxSpeed, maxSpeed, maxElement_scale hc, Option.map_map, Option.map_map]
  congr 1
  funext v
  simp only [Function.comp]
  rw [smul_dotProduct, dotProduct_smul, smul_smul, smul_eq_mul, Real.sqrt_mul (mul_self_nonneg _), Real.sqrt_mul_self hc.le]

lemma maxSpeed_nonneg {vs : List (Fin d → ℝ)} {s : ℝ} (h : maxSpeed vs = some s) : 0 ≤ s := by
  rw [maxSpeed, Option.map_eq_some_iff] at h
  obtain ⟨v, _, rfl⟩ := h
  exact Real.sqrt_nonneg _

/-- The convective time step at the speed `1e-10`, below which it is not used, is not smaller than the elastic
time step, so leaving it out has no effect. -/
def SlowLimit (C : TimeConfig d) : Prop := 0 ≤ C.cfl * C.dx ∧ 1 / 10 ^ 10 * C.dtMax ≤ C.cfl * C.dx

lemma chooseDt_slow {C : TimeConfig d} (h : SlowLimit C) (n : ℕ) (t : ℝ) {s : ℝ} (hs : 0 < s) :
    chooseDt C n t s = max (min (min (min (C.cfl * C.dx / s) C.dtMax) (C.frameDt * (n + 1) - t)) (C.finalTime - t)) C.minDt := by
  unfold chooseDt
  by_cases hc : |s| > 1 / 10 ^ 10
  · simp only [if_pos hc]
  · simp only [if_neg hc]
    have h0 : C.dtMax ≤ C.cfl * C.dx / s := by
      rw [abs_of_pos hs] at hc
      rw [le_div_iff₀ hs]
      by_cases hd : 0 ≤ C.dtMax
      · refine le_trans ?_ h.2
        rw [mul_comm]
        exact mul_le_mul_of_nonneg_right (not_lt.mp hc) hd
      · exact (mul_neg_of_neg_of_pos (not_le.mp hd) hs).le.trans h.1
    rw [min_eq_right h0]

lemma min_scale {c : ℝ} (hc : 0 < c) (a b : ℝ) : min (c * a) (c * b) = c * min a b := (mul_min_of_nonneg _ _ hc.le).symm
lemma max_scale {c : ℝ} (hc : 0 < c) (a b : ℝ) : max (c * a) (c * b) = c * max a b := (mul_max_of_nonneg _ _ hc.le).symm

lemma chooseDt_scale {C : TimeConfig d} (h : U.speed = 1 ∨ SlowLimit C ∧ SlowLimit (U.times C)) (n : ℕ) (t : ℝ) {s : ℝ}
    (hs : 0 ≤ s) : chooseDt (U.times C) n (U.time * t) (U.speed * s) = U.time * chooseDt C n t s := by
  have hT := U.time_pos
  have e1 : (U.times C).cfl * (U.times C).dx / (U.speed * s) = U.time * (C.cfl * C.dx / s) := by
    have := U.len_ne; have := U.time_ne
    show C.cfl * (U.len * C.dx) / (U.len / U.time * s) = _
    by_cases h0 : s = 0
    · simp [h0]
    · field_simp
  have e2 : (U.times C).frameDt * (n + 1) - U.time * t = U.time * (C.frameDt * (n + 1) - t) := by
    rw [frameDt_scale]; ring
  have e3 : (U.times C).finalTime - U.time * t = U.time * (C.finalTime - t) := by
    rw [finalTime_scale]; ring
  have e4 : (U.times C).minDt = U.time * C.minDt := rfl
  rcases h with h | ⟨h, h'⟩
  · unfold chooseDt
    simp only [e1, e2, e3, e4, dtMax_scale, h, one_mul]
    have := e1
    rw [h, one_mul] at this
    rw [this]
    split_ifs <;> simp only [min_scale hT, max_scale hT]
  · rcases hs.eq_or_lt with rfl | hs
    · unfold chooseDt
      simp only [mul_zero, abs_zero]
      rw [if_neg (by norm_num), if_neg (by norm_num), e2, e3, e4, dtMax_scale]
      simp only [min_scale hT, max_scale hT]
    · rw [chooseDt_slow h' _ _ (mul_pos U.speed_pos hs), chooseDt_slow h _ _ hs, e1, e2, e3, e4, dtMax_scale]
      simp only [min_scale hT, max_scale hT]

lemma rampGravity_scale (C : TimeConfig d) (gf g : Fin d → ℝ) (t : ℝ) (a : ℝ) :
    rampGravity (U.times C) (a • gf) (a • g) (U.time * t) = a • rampGravity C gf g t := by
  unfold rampGravity
  show (if C.gravitySpecial = true then if U.time * t < U.time * C.gravityTime then
    (1 / (U.time * C.gravityTime)) • ((U.time * t) • (a • gf)) else a • gf else a • g) = _
  have := U.time_ne
  split_ifs with h1 h2 h3 h3
  · rw [smul_smul, smul_smul, smul_smul, smul_smul]
    congr 1
    by_cases h0 : C.gravityTime = 0
    · simp [h0]
    · field_simp
  · exact absurd ((mul_lt_mul_iff_right₀ U.time_pos).mp h2) h3
  · exact absurd ((mul_lt_mul_iff_right₀ U.time_pos).mpr h3) h2
  · rfl
  · rfl

lemma updateDt_scale {C : TimeConfig d} (h : U.speed = 1 ∨ SlowLimit C ∧ SlowLimit (U.times C)) {gf g : Fin d → ℝ}
    {n : ℕ} {t a : ℝ} {vs vs' : List (Fin d → ℝ)} (hv : maxSpeed vs' = (maxSpeed vs).map (U.speed * ·)) :
    updateDt (U.times C) (a • gf) n (U.time * t) vs' (a • g) =
      (updateDt C gf n t vs g).map (Prod.map (U.time * ·) (a • ·)) := by
  unfold updateDt
  rw [hv, Option.map_map, Option.map_map]
  cases hs : maxSpeed vs with
  | none => rfl
  | some s =>
    simp only [Option.map_some, Function.comp, Prod.map]
    rw [chooseDt_scale U h n t (maxSpeed_nonneg hs), rampGravity_scale]

section loop
variable {W W' : Type*} (C : TimeConfig d) (f : W → W') (a : ℝ)

lemma saveFrame_scale (s : LoopState d W) :
    saveFrame (U.times C) (s.scale f U.time a) = (saveFrame C s).scale f U.time a := by
  unfold saveFrame
  show (if C.saveSim = true then _ else _) = _
  have : (U.times C).saveGrid = C.saveGrid := rfl
  rw [this]
  split_ifs <;> simp [LoopState.scale, Event.scale]

lemma endOfFrame_scale (s : LoopState d W) :
    endOfFrame (U.times C) (s.scale f U.time a) = (endOfFrame C s).scale f U.time a := by
  unfold endOfFrame
  refine ite_conv (f := fun s : LoopState d W => s.scale f U.time a) ?_
    (fun _ => saveFrame_scale U C f a { s with frame := s.frame + 1 }) (fun _ => rfl)
  rw [frameDt_scale]
  show U.time * C.frameDt * ((s.frame : ℝ) + 1) - U.time * s.time < U.time * C.minDt * (11 / 10) ↔ _
  rw [show U.time * C.frameDt * ((s.frame : ℝ) + 1) - U.time * s.time = U.time * (C.frameDt * (s.frame + 1) - s.time) by ring,
    mul_assoc U.time C.minDt, mul_lt_mul_iff_right₀ U.time_pos]

lemma finish_scale (s : LoopState d W) : finish (U.times C) (s.scale f U.time a) = (finish C s).scale f U.time a := by
  unfold finish
  show (if C.saveSim = true then _ else _) = _
  split_ifs <;> simp [LoopState.scale, Event.scale]

variable {C f a} {ph : Physics d W} {ph' : Physics d W'}
  (hslow : U.speed = 1 ∨ SlowLimit C ∧ SlowLimit (U.times C))
  (hspeed : ∀ w, maxSpeed (ph'.velocities (f w)) = (maxSpeed (ph.velocities w)).map (U.speed * ·))
  (hstep : ∀ w dt g t n, ph'.step (f w) (U.time * dt) (a • g) (U.time * t) n = (ph.step w dt g t n).map (Prod.map f id))

include hslow hspeed hstep in
lemma loopBody_scale (gf : Fin d → ℝ) (s : LoopState d W) :
    loopBody (U.times C) ph' (a • gf) (s.scale f U.time a) = (loopBody C ph gf s).scale f U.time a := by
  unfold loopBody
  have h1 : (s.scale f U.time a).frame = s.frame := rfl
  have h2 : (s.scale f U.time a).time = U.time * s.time := rfl
  have h3 : (s.scale f U.time a).step = s.step := rfl
  have h4 : (s.scale f U.time a).w = f s.w := rfl
  have h5 : (s.scale f U.time a).gravity = a • s.gravity := rfl
  rw [h1, h2, h3, h4, h5, updateDt_scale U hslow (hspeed s.w)]
  cases updateDt C gf s.frame s.time (ph.velocities s.w) s.gravity with
  | none => rfl
  | some r =>
    obtain ⟨dt, g⟩ := r
    simp only [Option.map_some, Prod.map_apply]
    rw [hstep]
    cases ph.step s.w dt g s.time s.step with
    | none => rfl
    | some r =>
      obtain ⟨w, b⟩ := r
      simp only [Option.map_some, Prod.map_apply, id_eq]
      cases b with
      | true => rfl
      | false =>
        have key : ∀ s2 : LoopState d W,
            (if |(U.times C).finalTime - (s2.scale f U.time a).time| < (U.times C).minDt * (11 / 10) ∨
                (U.times C).finalTime < (s2.scale f U.time a).time then
              Next.brk (saveFrame (U.times C) (s2.scale f U.time a)) else .cont (s2.scale f U.time a)) =
            Next.scale f U.time a (if |C.finalTime - s2.time| < C.minDt * (11 / 10) ∨ C.finalTime < s2.time then
              .brk (saveFrame C s2) else .cont s2) := by
          intro s2
          refine ite_conv (f := Next.scale f U.time a) ?_ (fun _ => by rw [saveFrame_scale]; rfl) (fun _ => rfl)
          rw [finalTime_scale]
          show |U.time * C.finalTime - U.time * s2.time| < U.time * C.minDt * (11 / 10) ∨
            U.time * C.finalTime < U.time * s2.time ↔ _
          rw [← mul_sub, abs_mul, abs_of_pos U.time_pos, mul_assoc, mul_lt_mul_iff_right₀ U.time_pos,
            mul_lt_mul_iff_right₀ U.time_pos]
        have := key (endOfFrame C { s with w := w, gravity := g, time := s.time + dt, step := s.step + 1 })
        rw [← endOfFrame_scale] at this
        simp only [LoopState.scale, mul_add] at this ⊢
        exact this

include hslow hspeed hstep in
lemma loop_scale (gf : Fin d → ℝ) : ∀ (fuel : ℕ) (s : LoopState d W),
    loop (U.times C) ph' (a • gf) fuel (s.scale f U.time a) = (loop C ph gf fuel s).scale f U.time a := by
  intro fuel
  induction fuel with
  | zero =>
    intro s
    unfold loop
    have h1 : (s.scale f U.time a).frame = s.frame := rfl
    have h2 : (U.times C).endFrame = C.endFrame := rfl
    rw [h1, h2, finish_scale]
    split_ifs <;> rfl
  | succ fuel ih =>
    intro s
    unfold loop
    have h1 : (s.scale f U.time a).frame = s.frame := rfl
    have h2 : (U.times C).endFrame = C.endFrame := rfl
    rw [h1, h2, finish_scale]
    split_ifs
    · rw [loopBody_scale U hslow hspeed hstep gf s]
      cases hb : loopBody C ph gf s with
      | cont s' => exact ih s'
      | brk s' => simp only [Next.scale]; rw [finish_scale]; rfl
      | fail s' => rfl
      | ub => rfl
    · rfl

include hslow hspeed hstep in
lemma simulate_scale (i : Bool) (em : ElasticModel) (pm : PlasticModel) (e : Bool) (fuel : ℕ) (s : LoopState d W) :
    simulate (U.times C) ph' i em pm e fuel (s.scale f U.time a) = (simulate C ph i em pm e fuel s).scale f U.time a := by
  unfold simulate
  by_cases ha : accepted i em pm e = true
  · rw [if_pos ha, if_pos ha]
    have := loop_scale U hslow hspeed hstep s.gravity fuel
      (if C.saveSim then { s with time := 0, frame := 0, out := s.out ++ [.info, .particles 0 0 s.w] }
        else { s with time := 0, frame := 0 })
    simp only [LoopState.scale] at this ⊢
    rw [← this]
    have h2 : (U.times C).saveSim = C.saveSim := rfl
    rw [h2]
    split_ifs <;> simp [Event.scale]
  · rw [if_neg ha, if_neg ha]; rfl

end loop
end time

/-! ### grids -/

section grid
variable {d : ℕ} (U : Scales)

lemma arangeLoop_scale {c : ℝ} (hc : 0 < c) : ∀ (fuel : ℕ) (a b s : ℝ),
    arangeLoop fuel (c * a) (c * b) (c * s) = (arangeLoop fuel a b s).map (List.map (c * ·)) := by
  intro fuel
  induction fuel with
  | zero => intro a b s; simp only [arangeLoop, mul_lt_mul_iff_right₀ hc]; split_ifs <;> rfl
  | succ n ih =>
    intro a b s
    simp only [arangeLoop, mul_lt_mul_iff_right₀ hc]
    split_ifs
    · rw [← mul_add, ih, Option.map_map, Option.map_map]
      rfl
    · rfl

lemma arange_scale {c : ℝ} (hc : 0 < c) (a b s : ℝ) :
    arange (c * a) (c * b) (c * s) = (arange a b s).map (List.map (c * ·)) := by
  rw [arange, arange, ← mul_sub, mul_div_mul_left _ _ hc.ne', arangeLoop_scale hc]

lemma maxElem_scale {c : ℝ} (hc : 0 < c) (xs : List ℝ) : maxElem (xs.map (c * ·)) = (maxElem xs).map (c * ·) := by
  cases xs with
  | nil => rfl
  | cons x xs =>
    simp only [maxElem, List.map_cons, Option.map_some, Option.some.injEq]
    induction xs generalizing x with
    | nil => rfl
    | cons y ys ih => rw [List.map_cons, List.foldl_cons, List.foldl_cons, max_scale hc, ih]

lemma minElem_scale {c : ℝ} (hc : 0 < c) (xs : List ℝ) : minElem (xs.map (c * ·)) = (minElem xs).map (c * ·) := by
  cases xs with
  | nil => rfl
  | cons x xs =>
    simp only [minElem, List.map_cons, Option.map_some, Option.some.injEq]
    induction xs generalizing x with
    | nil => rfl
    | cons y ys ih => rw [List.map_cons, List.foldl_cons, List.foldl_cons, min_scale hc, ih]

lemma axisInit_scale (dx : ℝ) (sf : ℕ) (ref : Option ℝ) (xs : List ℝ) :
    axisInit (U.len * dx) sf (ref.map (U.len * ·)) (xs.map (U.len * ·)) = (axisInit dx sf ref xs).map U.box := by
  have hc := U.len_pos
  simp only [axisInit, maxElem_scale hc, minElem_scale hc, Option.bind_eq_bind]
  cases maxElem xs with
  | none => rfl
  | some mx =>
    cases minElem xs with
    | none => rfl
    | some mn =>
      have : withRef (ref.map (U.len * ·)) (U.len * mn) (U.len * mx) =
          (U.len * (withRef ref mn mx).1, U.len * (withRef ref mn mx).2) := by
        cases ref with
        | none => rfl
        | some r =>
          simp only [withRef, Option.map_some, mul_lt_mul_iff_right₀ hc, gt_iff_lt]
          split_ifs <;> rfl
      simp only [Option.map_some, Option.bind_some, this, Scales.box, Option.some.injEq, AxisInit.mk.injEq, true_and]
      constructor <;> ring

lemma axisInitNodes_scale (dx : ℝ) (b : AxisInit ℝ) :
    axisInitNodes (U.len * dx) (U.box b) = (axisInitNodes dx b).map (List.map (U.len * ·)) := by
  rw [axisInitNodes, axisInitNodes, ← arange_scale U.len_pos, mul_add]
  rfl

lemma axisContNodes_scale (h1 : U.len = 1) (dx : ℝ) (b : AxisInit ℝ) (xs : List ℝ) :
    axisContNodes (U.len * dx) (U.box b) (xs.map (U.len * ·)) = (axisContNodes dx b xs).map (List.map (U.len * ·)) := by
  simp [h1, Scales.box]

lemma sequenceFin_map' {α β : Type*} : ∀ {d : ℕ} (h : α → β) (f : Fin d → Option α),
    sequenceFin (fun a => (f a).map h) = (sequenceFin f).map fun r a => h (r a) := by
  intro d
  induction d with
  | zero => intro h f; simp only [sequenceFin, Option.map_some]; congr 1; exact Subsingleton.elim _ _
  | succ d ih =>
    intro h f
    simp only [sequenceFin, Option.bind_eq_bind]
    have := ih h (fun a => f a.succ)
    cases f 0 with
    | none => rfl
    | some a0 =>
      simp only [Option.map_some, Option.bind_some]
      have e1 : (Fin.tail fun a => (f a).map h) = fun a => (f a.succ).map h := rfl
      have e2 : (Fin.tail f) = fun a => f a.succ := rfl
      rw [e1, this, e2]
      cases sequenceFin fun a : Fin d => f a.succ with
      | none => rfl
      | some r =>
        simp only [Option.map_some, Option.bind_some, Option.some.injEq]
        funext a
        refine Fin.cases ?_ (fun a => ?_) a <;> simp

lemma remeshPeriodic_scale (dx : ℝ) (L : Fin d → ℝ) (k : ℕ) :
    remeshPeriodic (U.len * dx) (U.len • L) k = (remeshPeriodic dx L k).map U.axes := by
  unfold remeshPeriodic Scales.axes
  rw [← sequenceFin_map' (List.map (U.len * ·))]
  congr 1
  funext a
  have e : ∀ x y : ℝ, (if a.val = 1 then arange x y dx else arange x y dx).map (List.map (U.len * ·)) =
    arange (U.len * x) (U.len * y) (U.len * dx) := by
    intro x y; rw [ite_self, arange_scale U.len_pos]
  split_ifs with h
  · rw [fixedNodesY, fixedNodesY, ← arange_scale U.len_pos, Pi.smul_apply, smul_eq_mul]
    congr 1 <;> ring
  · rw [fixedNodesPeriodic, fixedNodesPeriodic, ← arange_scale U.len_pos, Pi.smul_apply, smul_eq_mul]
    congr 1 <;> ring

lemma chooseGrid_scale {R : Setup (d + 2)} (h : R.S.pbc = true ∨ U.len = 1) (w : World (d + 2)) (n : ℕ) :
    chooseGrid (U.setup R).S ⟨(U.world w).ps, (U.world w).box, (U.world w).g, n⟩ =
      (chooseGrid R.S ⟨w.ps, w.box, w.g, n⟩).map
        (Prod.map (Option.map fun b a => U.box (b a)) U.axes) := by
  have hdx : (U.setup R).S.P.dx = U.len * R.S.P.dx := rfl
  have hL : (U.setup R).S.L = U.len • R.S.L := rfl
  have hpb : (U.setup R).S.pbc = R.S.pbc := rfl
  have hrf : (U.setup R).S.ref = R.S.ref.map (U.len • ·) := rfl
  have hx : ∀ a, ((w.ps.map U.particle).map fun p => p.x).map (fun x => x a) =
      ((w.ps.map fun p => p.x).map fun x => x a).map (U.len * ·) := by
    intro a; simp [Scales.particle, Function.comp_def]
  have hr : ∀ a, (R.S.ref.map (U.len • ·)).map (fun r => r a) = (R.S.ref.map fun r => r a).map (U.len * ·) := by
    intro a; cases R.S.ref <;> rfl
  simp only [chooseGrid, hdx, hL, hpb, hrf]
  by_cases hp : R.S.pbc = true
  · simp only [if_pos hp]
    by_cases h0 : n = 0
    · simp only [if_pos h0, remeshPeriodic_scale, Option.map_map]
      rfl
    · simp only [if_neg h0]
      rfl
  · have h1 : U.len = 1 := h.resolve_left hp
    simp only [if_neg hp, Scales.world]
    by_cases h0 : n = 0
    · simp only [if_pos h0, remeshInit, Option.bind_eq_bind, hr, hx, axisInit_scale]
      rw [sequenceFin_map' U.box]
      cases sequenceFin fun a => axisInit R.S.P.dx 2 (R.S.ref.map fun r => r a) ((w.ps.map fun p => p.x).map fun x => x a) with
      | none => rfl
      | some ai =>
        simp only [Option.map_some, Option.bind_some, axisInitNodes_scale]
        rw [sequenceFin_map' (List.map (U.len * ·))]
        cases sequenceFin fun a => axisInitNodes R.S.P.dx (ai a) <;> rfl
    · simp only [if_neg h0]
      cases w.box with
      | none => rfl
      | some b =>
        simp only [Option.map_some, Option.bind_some, remeshCont, hx, axisContNodes_scale U h1]
        rw [sequenceFin_map' (List.map (U.len * ·))]
        cases sequenceFin fun a => axisContNodes R.S.P.dx (b a) ((w.ps.map fun p => p.x).map fun x => x a) <;> rfl

lemma axes_size (g : Axes d ℝ) : (U.axes g).size = g.size := by
  funext a; simp [Axes.size, Scales.axes]

lemma nodePosOf_scale (g : Axes d ℝ) (i : Fin d → ℕ) : nodePosOf (U.axes g) i = U.len • nodePosOf g i := by
  funext a
  simp only [nodePosOf, Scales.axes, List.getD_eq_getElem?_getD, List.getElem?_map, Pi.smul_apply, smul_eq_mul]
  cases (g a)[i a]? <;> simp

/-- A stencil in other units. -/
noncomputable def Scales.stencil (s : Stencil d ℝ) : Stencil d ℝ :=
  { s with xi := fun a i => U.len * s.xi a i, G := fun a i => s.G a i / U.len }

lemma mkStencil_scale (deg : Deg) (o : ℝ) (g : Axes d ℝ) (b : Fin d → ℕ) (x : Fin d → ℝ) :
    mkStencil deg (o / U.len) (U.axes g) b (U.len • x) = (mkStencil deg o g b x).map U.stencil := by
  have hl := U.len_ne
  unfold mkStencil
  by_cases h : ∀ a, b a + 3 < (g a).length
  · have h' : ∀ a, b a + 3 < (U.axes g a).length := fun a => by simpa [Scales.axes] using h a
    rw [dif_pos h, dif_pos h']
    have e : ∀ y z : ℝ, (U.len * y - U.len * z) * (o / U.len) = (y - z) * o := fun y z => by field_simp
    simp only [Scales.stencil, Scales.axes, Option.map_some, List.getElem_map, Pi.smul_apply, smul_eq_mul, e, Option.some.injEq,
      Stencil.mk.injEq, true_and]
    funext a i
    rw [mul_div_assoc]
  · have h' : ¬ ∀ a, b a + 3 < (U.axes g a).length := fun h' => h fun a => by simpa [Scales.axes] using h' a
    rw [dif_neg h, dif_neg h']
    rfl

lemma baseInt_scale (o : ℝ) (l : List ℝ) (x : ℝ) :
    baseInt (o / U.len) (l.map (U.len * ·)) (U.len * x) = baseInt o l x := by
  have hl := U.len_ne
  have e : ∀ y z : ℝ, (U.len * y - U.len * z) * (o / U.len) = (y - z) * o := fun y z => by field_simp
  cases l <;> simp [baseInt, e]

lemma stencilP2G_scale (deg : Deg) (o : ℝ) (g : Axes d ℝ) (x : Fin d → ℝ) :
    stencilP2G deg (o / U.len) (U.axes g) (U.len • x) = (stencilP2G deg o g x).map U.stencil := by
  have : baseP2G (o / U.len) (U.axes g) (U.len • x) = baseP2G o g x := by
    funext a
    simp only [baseP2G, Scales.axes, Pi.smul_apply, smul_eq_mul, baseInt_scale]
  rw [stencilP2G, stencilP2G, this]
  cases sequenceFin (baseP2G o g x) with
  | none => rfl
  | some b => exact mkStencil_scale U deg o g b x

lemma stencilG2P_scale (deg : Deg) (o : ℝ) (g : Axes d ℝ) (x : Fin d → ℝ) :
    stencilG2P deg (o / U.len) (U.axes g) (U.len • x) = (stencilG2P deg o g x).map U.stencil := by
  have : baseG2P (o / U.len) (U.axes g) (U.len • x) = baseG2P o g x := by
    funext a
    simp only [baseG2P, Scales.axes, Pi.smul_apply, smul_eq_mul, baseInt_scale]
  rw [stencilG2P, stencilG2P, this]
  cases sequenceFin (baseG2P o g x) with
  | none => rfl
  | some b => exact mkStencil_scale U deg o g b x

/-- Mapping the input of `mapM`. -/
lemma mapM_conv {α α' β β' : Type*} {f : α → Option β} {f' : α' → Option β'} {u : α → α'} {v : β → β'}
    (h : ∀ a, f' (u a) = (f a).map v) : ∀ l : List α, (l.map u).mapM f' = (l.mapM f).map (List.map v) := by
  intro l
  induction l with
  | nil => rfl
  | cons a l ih =>
    rw [List.map_cons, List.mapM_cons, List.mapM_cons, h, ih]
    cases f a with
    | none => rfl
    | some b => cases l.mapM f <;> rfl

/-- A particle with its stencil in other units. -/
noncomputable def Scales.pair (ps : Particle d ℝ × Stencil d ℝ) : Particle d ℝ × Stencil d ℝ :=
  (U.particle ps.1, U.stencil ps.2)

lemma withStencils_scale {st st' : (Fin d → ℝ) → Option (Stencil d ℝ)}
    (h : ∀ x, st' (U.len • x) = (st x).map U.stencil) (ps : List (Particle d ℝ)) :
    withStencils st' (ps.map U.particle) = (withStencils st ps).map (List.map U.pair) := by
  unfold withStencils
  refine mapM_conv (fun p => ?_) ps
  show (st' (U.len • p.x)).map _ = _
  rw [h, Option.map_map, Option.map_map]
  rfl

lemma nodePos_scale (s : Stencil d ℝ) (j : Fin d → Fin 4) : (U.stencil s).nodePos j = U.len • s.nodePos j := rfl
lemma weight_scale (s : Stencil d ℝ) (j : Fin d → Fin 4) : (U.stencil s).weight j = s.weight j := rfl
lemma node_scale (s : Stencil d ℝ) (j : Fin d → Fin 4) : (U.stencil s).node j = s.node j := rfl
lemma weightGrad_scale (s : Stencil d ℝ) (j : Fin d → Fin 4) :
    (U.stencil s).weightGrad j = U.len⁻¹ • s.weightGrad j := by
  funext b
  simp only [Stencil.weightGrad, Scales.stencil, Pi.smul_apply, smul_eq_mul]
  have : ∀ a, (if a = b then s.G a (j a) / U.len else s.W a (j a)) =
      (if a = b then U.len⁻¹ else 1) * (if a = b then s.G a (j a) else s.W a (j a)) := by
    intro a; split_ifs <;> ring
  rw [Finset.prod_congr rfl fun a _ => this a, Finset.prod_mul_distrib]
  simp

end grid
end Verif
