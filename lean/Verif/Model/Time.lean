import Verif.Model.Enums
import Mathlib.Analysis.Real.Sqrt
import Mathlib.LinearAlgebra.Matrix.DotProduct

/-!
# Model of `update_dt.cpp` and of the main loop `Simulation::simulate` (simulation.cpp:73-207)

The physics of one step (everything `advanceStep` does after `updateDt`) is an arbitrary function
`Physics.step`; `Verif/Model/Run.lean` instantiates it. Real arithmetic.
-/

namespace Verif
open Matrix
noncomputable section

/-- The constants of a run that the time control uses (simulation.hpp:36-57, 163-171). -/
structure TimeConfig (d : ℕ) where
  endFrame : ℕ
  saveSim : Bool
  saveGrid : Bool
  gravitySpecial : Bool
  gravityTime : ℝ
  minDt : ℝ
  fps : ℝ
  cfl : ℝ
  cflElastic : ℝ
  rho : ℝ
  E : ℝ
  dx : ℝ

variable {d : ℕ}

/-- `wave_speed = sqrt(E/rho)` (simulation.cpp:116). -/
def TimeConfig.waveSpeed (C : TimeConfig d) : ℝ := √(C.E / C.rho)

/-- `dt_max = cfl_elastic * dx / wave_speed` (simulation.cpp:118). -/
def TimeConfig.dtMax (C : TimeConfig d) : ℝ := C.cflElastic * C.dx / C.waveSpeed

/-- `frame_dt = 1.0 / fps` (simulation.cpp:120). -/
def TimeConfig.frameDt (C : TimeConfig d) : ℝ := 1 / C.fps

/-- `final_time = end_frame * frame_dt` (simulation.cpp:151). -/
def TimeConfig.finalTime (C : TimeConfig d) : ℝ := C.endFrame * C.frameDt

/-- `std::max_element` with the comparison of squared norms (update_dt.cpp:7-11): the first element
that is not smaller than any other. Dereferencing the end iterator of an empty range is undefined. -/
def maxElement (vs : List (Fin d → ℝ)) : Option (Fin d → ℝ) :=
  match vs with
  | [] => none
  | v :: vs => some (vs.foldl (fun best w => if best ⬝ᵥ best < w ⬝ᵥ w then w else best) v)

/-- `max_speed` (update_dt.cpp:12). -/
def maxSpeed (vs : List (Fin d → ℝ)) : Option ℝ := (maxElement vs).map fun v => √(v ⬝ᵥ v)

/-- The time step (update_dt.cpp:22-37). -/
def chooseDt (C : TimeConfig d) (frame : ℕ) (time speed : ℝ) : ℝ :=
  let dt := if |speed| > 1 / 10 ^ 10 then min (C.cfl * C.dx / speed) C.dtMax else C.dtMax
  let dt := min dt (C.frameDt * (frame + 1) - time)
  let dt := min dt (C.finalTime - time)
  max dt C.minDt

/-- The gravity ramp (update_dt.cpp:46-63); otherwise `gravity` is left as it is. -/
def rampGravity (C : TimeConfig d) (gravityFinal gravity : Fin d → ℝ) (time : ℝ) : Fin d → ℝ :=
  if C.gravitySpecial then
    if time < C.gravityTime then (1 / C.gravityTime) • (time • gravityFinal) else gravityFinal
  else gravity

/-- `updateDt` (update_dt.cpp:5-67): the new `dt` and `gravity`. -/
def updateDt (C : TimeConfig d) (gravityFinal : Fin d → ℝ) (frame : ℕ) (time : ℝ)
    (vs : List (Fin d → ℝ)) (gravity : Fin d → ℝ) : Option (ℝ × (Fin d → ℝ)) :=
  (maxSpeed vs).map fun s => (chooseDt C frame time s, rampGravity C gravityFinal gravity time)

/-- The physics as seen by the time loop: the particle velocities (update_dt.cpp:7) and the rest of
`advanceStep` (simulation.cpp:216-266), given `dt`, gravity, `time`, `current_time_step`; it returns
the new world and whether `exit` was set to 1; `none` is undefined behaviour. -/
structure Physics (d : ℕ) (W : Type*) where
  velocities : W → List (Fin d → ℝ)
  step : W → (dt : ℝ) → (gravity : Fin d → ℝ) → (time : ℝ) → (stepNo : ℕ) → Option (W × Bool)

/-- Files written by a run: `info.txt`, `particles_f<frame>.ply` (with `last_written.txt`),
`grid_f<frame>.ply`, `info_timing.txt` (simulation.cpp:153-156, 176-181, 186-191, 205-206;
save_data.cpp). The world at the time of writing stands for the content. -/
inductive Event (W : Type*) where
  | info
  | particles (frame : ℕ) (time : ℝ) (w : W)
  | grid (frame : ℕ) (time : ℝ) (w : W)
  | timing (steps : ℕ)

/-- The variables of the main loop. -/
structure LoopState (d : ℕ) (W : Type*) where
  w : W
  time : ℝ
  frame : ℕ
  step : ℕ
  gravity : Fin d → ℝ
  out : List (Event W)

/-- How a run ends. -/
inductive Result (d : ℕ) (W : Type*) where
  /-- `simulate` returned before doing anything (simulation.cpp:75-111) -/
  | refused (s : LoopState d W)
  /-- the loop ended and the timing file was written -/
  | finished (s : LoopState d W)
  /-- `if (exit == 1) return;` (simulation.cpp:169-170) -/
  | failed (s : LoopState d W)
  /-- undefined behaviour -/
  | ub
  /-- the iteration limit of the model was reached -/
  | outOfFuel (s : LoopState d W)

variable {W : Type*}

/-- `if (save_sim){ saveParticleData(); if (save_grid) saveGridData(); }`
(simulation.cpp:176-181, 186-191). -/
def saveFrame (C : TimeConfig d) (s : LoopState d W) : LoopState d W :=
  if C.saveSim then
    { s with out := s.out ++ [.particles s.frame s.time s.w] ++
        if C.saveGrid then [.grid s.frame s.time s.w] else [] }
  else s

/-- What happens at the end of one iteration. -/
inductive Next (d : ℕ) (W : Type*) where
  | cont (s : LoopState d W)
  | brk (s : LoopState d W)
  | fail (s : LoopState d W)
  | ub

/-- `if(frame_dt*(frame+1) - time < min_dt*1.1){ frame++; save }` (simulation.cpp:173-183). -/
def endOfFrame (C : TimeConfig d) (s : LoopState d W) : LoopState d W :=
  if C.frameDt * (s.frame + 1) - s.time < C.minDt * (11 / 10) then
    saveFrame C { s with frame := s.frame + 1 }
  else s

/-- The body of the loop (simulation.cpp:168-193). -/
def loopBody (C : TimeConfig d) (ph : Physics d W) (gravityFinal : Fin d → ℝ) (s : LoopState d W) :
    Next d W :=
  match updateDt C gravityFinal s.frame s.time (ph.velocities s.w) s.gravity with
  | none => .ub
  | some (dt, g) =>
    match ph.step s.w dt g s.time s.step with
    | none => .ub
    | some (w, true) => .fail { s with w := w, gravity := g }
    | some (w, false) =>
      let s := endOfFrame C
        { s with w := w, gravity := g, time := s.time + dt, step := s.step + 1 }
      if |C.finalTime - s.time| < C.minDt * (11 / 10) ∨ C.finalTime < s.time then
        .brk (saveFrame C s)
      else .cont s

/-- `if (save_sim) saveTiming();` (simulation.cpp:205-206). -/
def finish (C : TimeConfig d) (s : LoopState d W) : LoopState d W :=
  if C.saveSim then { s with out := s.out ++ [.timing s.step] } else s

/-- `while (frame < end_frame)` (simulation.cpp:161-194), at most `fuel` iterations. -/
def loop (C : TimeConfig d) (ph : Physics d W) (gravityFinal : Fin d → ℝ) :
    ℕ → LoopState d W → Result d W
  | fuel, s =>
    if s.frame < C.endFrame then
      match fuel with
      | 0 => .outOfFuel s
      | fuel + 1 =>
        match loopBody C ph gravityFinal s with
        | .cont s' => loop C ph gravityFinal fuel s'
        | .brk s' => .finished (finish C s')
        | .fail s' => .failed s'
        | .ub => .ub
    else .finished (finish C s)

/-- The checks at the start of `simulate` (simulation.cpp:75-84, 110-111). The check of `dim`
(86-95) can not fail: `dim` is 2 or 3. -/
def accepted (isInitialized : Bool) (em : ElasticModel) (pm : PlasticModel) (exit : Bool) : Bool :=
  isInitialized && !(em ≠ .hencky && pm ≠ .noPlasticity) && !exit

/-- `simulate` (simulation.cpp:73-207). `s` holds the state of the object before the call;
`time` and `frame` are reset, `current_time_step` is not (simulation.cpp:149-151). Setting
`muI` with `use_mibf` (133-140) is part of `ph`'s initial world. -/
def simulate (C : TimeConfig d) (ph : Physics d W) (isInitialized : Bool) (em : ElasticModel)
    (pm : PlasticModel) (exit : Bool) (fuel : ℕ) (s : LoopState d W) : Result d W :=
  if accepted isInitialized em pm exit then
    let gravityFinal := s.gravity
    let s := { s with time := 0, frame := 0 }
    let s := if C.saveSim then { s with out := s.out ++ [.info, .particles 0 0 s.w] } else s
    loop C ph gravityFinal fuel s
  else .refused s

end
end Verif
