import Verif.Model.Files

/-!
# The plotting script postprocess/load_ply.py

What the script reads from the output directory and shows in its panels. The libraries numpy, plyfile and matplotlib are not part of the
repository: modelled are the selection of a column by its name, the element-wise arithmetic, the maximum, and that `subplots` returns an array
only for two or more rows. Not modelled: colours, axes, fonts.
`none`: the script stops with an exception.
-/

namespace Verif

/-- `plydata.elements[0].data[name]` (load_ply.py:39-42): the values of one property of all vertices; an unknown name raises an exception. -/
def plyColumn (f : Ply) (name : String) : Option (List ℝ) :=
  if name ∈ f.props then (List.range f.count).mapM fun i => f.data[i * f.props.length + f.props.idxOf name]? else none

/-- `round(x, k)` of Python. Halves are rounded up here, to an even digit in Python. -/
noncomputable def roundDigits (k : ℕ) (x : ℝ) : ℝ := round (x * 10 ^ k) / 10 ^ k

/-- One of the panels of the plot (load_ply.py:36-50): the points with their speeds (shown as colours), the label with the time, and the line
printed on the console. -/
structure Panel where
  frame : ℕ
  points : List (ℝ × ℝ)
  speeds : List ℝ
  printedMax : ℝ
  label : ℝ

/-- `PlyData.read(...)` of a file that is missing or no ply file raises an exception (load_ply.py:38). -/
def readPly (D : Disk) (path : String) : Option Ply :=
  match D path with
  | some (.ply f) => some f
  | _ => none

/-- `frame_dt = 1.0 / float(info[1])` with `info = np.loadtxt(file + "info.txt")` (load_ply.py:23-24). Division by zero raises an exception. The
entry `info[2]` is read as well and not used. -/
noncomputable def readFrameDt (D : Disk) (file : String) : Option ℝ :=
  match D (file ++ infoFile) with
  | some (.lines (_ :: fps :: _ :: _)) => if fps = 0 then none else some (1 / fps)
  | _ => none

/-- The body of the loop (load_ply.py:37-48). The maximum of no values raises an exception. -/
noncomputable def plotFrame (D : Disk) (file : String) (frameDt : ℝ) (frame : ℕ) : Option Panel := do
  let f ← readPly D (file ++ ("particles_f" ++ toString frame ++ ".ply"))
  let x ← plyColumn f "x"
  let y ← plyColumn f "y"
  let vx ← plyColumn f "vx"
  let vy ← plyColumn f "vy"
  let v := List.zipWith (fun a b => √(a ^ 2 + b ^ 2)) vx vy
  let vmax ← v.max?
  some ⟨frame, x.zip y, v, roundDigits 3 vmax, roundDigits 2 (frame * frameDt)⟩

/-- The script (load_ply.py:18-69): `file` and `frames_to_plot` are edited by the user. `plt.subplots(len(frames_to_plot), 1)` (line 34) raises an
exception for no rows, and for one row it returns a single `Axes` instead of an array, so that `ax[f]` (line 46) raises one. -/
noncomputable def loadPly (D : Disk) (file : String) (frames : List ℕ) : Option (List Panel) := do
  let frameDt ← readFrameDt D file
  if frames.length < 2 then none
  else frames.mapM (plotFrame D file frameDt)

end Verif
