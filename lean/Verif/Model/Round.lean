import Verif.Model.Time

/-!
# The time loop in rounded arithmetic

The functions of `Model/Time` with every arithmetic operation followed by a rounding `fl`, as on a computer. With
`fl = id` they are those of `Model/Time` (`C98_exact`). The speed of the fastest particle, the gravity and the physics are
arbitrary functions, so nothing is assumed about the rounding errors made in computing them. Fused multiply-add
(contraction of `a*b - c` to one rounded operation) is not modelled.
-/

namespace Verif
noncomputable section
variable {d : ℕ} {W : Type*}

/-- `wave_speed` (simulation.cpp:116), `dt_max` (118). -/
def TimeConfig.dtMaxFl (C : TimeConfig d) (fl : ℝ → ℝ) : ℝ := fl (fl (C.cflElastic * C.dx) / fl √(fl (C.E / C.rho)))

/-- `frame_dt` (simulation.cpp:120). -/
def TimeConfig.frameDtFl (C : TimeConfig d) (fl : ℝ → ℝ) : ℝ := fl (1 / C.fps)

/-- `frame_dt*n` (simulation.cpp:151, 173; update_dt.cpp:35). -/
def TimeConfig.frameEndFl (C : TimeConfig d) (fl : ℝ → ℝ) (n : ℕ) : ℝ := fl (C.frameDtFl fl * n)

/-- `final_time = end_frame * frame_dt` (simulation.cpp:151). -/
def TimeConfig.finalTimeFl (C : TimeConfig d) (fl : ℝ → ℝ) : ℝ := fl (C.endFrame * C.frameDtFl fl)

/-- `min_dt*1.1` (simulation.cpp:173, 184). -/
def TimeConfig.tolFl (C : TimeConfig d) (fl : ℝ → ℝ) : ℝ := fl (C.minDt * fl (11 / 10))

/-- The limits of the time step from the speed of particles and waves (update_dt.cpp:22-33). -/
def limitFl (C : TimeConfig d) (fl : ℝ → ℝ) (speed : ℝ) : ℝ :=
  if |speed| > fl (1 / 10 ^ 10) then min (fl (fl (C.cfl * C.dx) / speed)) (C.dtMaxFl fl) else C.dtMaxFl fl

/-- The time step (update_dt.cpp:22-37). -/
def chooseDtFl (C : TimeConfig d) (fl : ℝ → ℝ) (frame : ℕ) (time speed : ℝ) : ℝ :=
  let dt := limitFl C fl speed
  let dt := min dt (fl (C.frameEndFl fl (frame + 1) - time))
  let dt := min dt (fl (C.finalTimeFl fl - time))
  max dt C.minDt

/-- What the time loop needs from the rest: the computed `max_speed` (update_dt.cpp:7-12; `none` without particles), the
computed gravity as a function of the old one and the time (46-63), and the rest of `advanceStep`. -/
structure PhysicsFl (d : ℕ) (W : Type*) where
  speed : W → Option ℝ
  ramp : (Fin d → ℝ) → ℝ → (Fin d → ℝ)
  step : W → (dt : ℝ) → (gravity : Fin d → ℝ) → (time : ℝ) → (stepNo : ℕ) → Option (W × Bool)

/-- simulation.cpp:173-183. -/
def endOfFrameFl (C : TimeConfig d) (fl : ℝ → ℝ) (s : LoopState d W) : LoopState d W :=
  if fl (C.frameEndFl fl (s.frame + 1) - s.time) < C.tolFl fl then saveFrame C { s with frame := s.frame + 1 } else s

/-- simulation.cpp:168-193. -/
def loopBodyFl (C : TimeConfig d) (fl : ℝ → ℝ) (ph : PhysicsFl d W) (s : LoopState d W) : Next d W :=
  match ph.speed s.w with
  | none => .ub
  | some speed =>
    let dt := chooseDtFl C fl s.frame s.time speed
    let g := ph.ramp s.gravity s.time
    match ph.step s.w dt g s.time s.step with
    | none => .ub
    | some (w, true) => .fail { s with w := w, gravity := g }
    | some (w, false) =>
      let s := endOfFrameFl C fl { s with w := w, gravity := g, time := fl (s.time + dt), step := s.step + 1 }
      if |fl (C.finalTimeFl fl - s.time)| < C.tolFl fl ∨ C.finalTimeFl fl < s.time then .brk (saveFrame C s) else .cont s

/-- simulation.cpp:161-194, at most `fuel` iterations. -/
def loopFl (C : TimeConfig d) (fl : ℝ → ℝ) (ph : PhysicsFl d W) : ℕ → LoopState d W → Result d W
  | fuel, s =>
    if s.frame < C.endFrame then
      match fuel with
      | 0 => .outOfFuel s
      | fuel + 1 =>
        match loopBodyFl C fl ph s with
        | .cont s' => loopFl C fl ph fuel s'
        | .brk s' => .finished (finish C s')
        | .fail s' => .failed s'
        | .ub => .ub
    else .finished (finish C s)

/-- `simulate` (simulation.cpp:73-207), see `simulate`. -/
def simulateFl (C : TimeConfig d) (fl : ℝ → ℝ) (ph : PhysicsFl d W) (isInitialized : Bool) (em : ElasticModel)
    (pm : PlasticModel) (exit : Bool) (fuel : ℕ) (s : LoopState d W) : Result d W :=
  if accepted isInitialized em pm exit then
    let s := { s with time := 0, frame := 0 }
    let s := if C.saveSim then { s with out := s.out ++ [.info, .particles 0 0 s.w] } else s
    loopFl C fl ph fuel s
  else .refused s

/-- The physics of `Model/Time`. -/
def Physics.exact (C : TimeConfig d) (gravityFinal : Fin d → ℝ) (ph : Physics d W) : PhysicsFl d W where
  speed w := maxSpeed (ph.velocities w)
  ramp g t := rampGravity C gravityFinal g t
  step := ph.step

end
end Verif
