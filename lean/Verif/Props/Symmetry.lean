import Verif.Props.Mirror
import Verif.Props.WallOrder

set_option linter.unusedSectionVars false
set_option linter.unusedSimpArgs false
set_option linter.unusedVariables false

/-!
# C108: symmetric problems have symmetric solutions
-/

namespace Verif.Props
open Verif Matrix

/-- The new simulation with the given particles, walls and gravity is its own mirror image: the objects that cover a point and
the reference point are; gravity does not point across; the mirror exchanges the particles as `o` says, and the walls as `ow`
says, where the walls that cover the same point at the same time keep their order. -/
structure SymmetricProblem {d : ℕ} (sg : Fin (d + 2) → ℤˣ) (c : Fin (d + 2) → ℝ) (R : Setup (d + 2)) (ps : List (Particle (d + 2) ℝ))
    (plates : List (Plate (d + 2))) (g : Fin (d + 2) → ℝ) (o ow : List ℕ) : Prop where
  objs : SameOrder GenObject.inside R.objs (R.objs.map (mirObj sg c))
  ref : R.S.ref.map (mirX sg c) = R.S.ref
  gravity : mirV sg g = g
  order : o.Perm (List.range ps.length)
  particles : ps.map (mirP sg c) = pick o ps
  walls : plates.map (mirPlate sg c) = pick ow plates
  wallOrder : ∀ ms, SameOrder R.ops.inside (movedWalls R.ops R.C.frameDt plates ms)
    (movedWalls R.ops R.C.frameDt (pick ow plates) ms)

/-- In all steps of the run the deformation gradients handed to the constitutive law are invertible. -/
def Invertible {d : ℕ} (R : Setup (d + 2)) (ps : List (Particle (d + 2) ℝ)) (plates : List (Plate (d + 2))) (g : Fin (d + 2) → ℝ) : Prop :=
  ∀ s1 dt g1 w, StepOf R (newState ps plates g) s1 dt g1 w → ∀ o, (∀ a, IsLeast (coords R.S.ref (ps.map fun p => p.x) a) (o a)) →
    ∀ p ∈ s1.w.ps, ((schemeOf R o dt g1 s1.w.plates).trial s1.w.ps p).F.det ≠ 0

/-- A state that is its own mirror image: the mirror exchanges the particles as `o` says and the walls as `ow` says, and the grid
file is symmetric. -/
structure SymmetricState {d : ℕ} (sg : Fin (d + 2) → ℤˣ) (c : Fin (d + 2) → ℝ) (o ow : List ℕ) (w : World (d + 2)) : Prop where
  particles : w.ps.map (mirP sg c) = pick o w.ps
  walls : w.plates.map (mirPlate sg c) = pick ow w.plates
  rows : ∀ X v M, M ≠ 0 → ((X, v, M) ∈ gridRows w ↔ (mirX sg c X, mirV sg v, M) ∈ gridRows w)

section
variable {d : ℕ} {R : Setup (d + 2)} {sg : Fin (d + 2) → ℤˣ} {c : Fin (d + 2) → ℝ} {A : Set ℝ}
  {deg : Deg} {dx fr m vol : ℝ} {mibf : Bool} {i e : Bool} {fuel : ℕ}

lemma run_sym (hops : PlateMir R.ops sg c A) (hA0 : 0 ∈ A) (hP : R.S.P = mkTransferParams deg dx fr mibf m vol) (hd : deg ≠ .one)
    (hdx : 0 < dx) (hm : 0 < m) (hpbc : R.S.pbc = false) (hc : R.S.changePos = false)
    (hR : ∀ k ps, (R.sched k ps).flatten.Perm ps)
    {ps : List (Particle (d + 2) ℝ)} (hne : ps ≠ []) {plates : List (Plate (d + 2))} {g : Fin (d + 2) → ℝ}
    (hpl : mibf = false → ∀ p ∈ plates, p.friction ∈ A)
    (hfr : mibf = true → FrictionIn R (newState ps plates g) A)
    (hlat : ∀ a, sg a = -1 → ∀ lo hi, IsLeast (coords R.S.ref (ps.map fun p => p.x) a) lo →
      IsGreatest (coords R.S.ref (ps.map fun p => p.x) a) hi → ∃ k : ℤ, hi = lo + k * dx)
    (hsvd : ∀ F, F.det ≠ 0 → IsSvd F (R.svd F)) (hinv : Invertible R ps plates g)
    {o ow : List ℕ} (h : SymmetricProblem sg c R ps plates g o ow)
    {r : LoopState (d + 2) (World (d + 2))} (hfin : runProgram R i e fuel (newState ps plates g) = .finished r) :
    ∀ n t w, (.particles n t w ∈ r.out ∨ .grid n t w ∈ r.out) → SymmetricState sg c o ow w := by
  set s : LoopState (d + 2) (World (d + 2)) := newState ps plates g with hs
  set s' : LoopState (d + 2) (World (d + 2)) := newState (ps.map (mirP sg c)) (plates.map (mirPlate sg c)) (mirV sg g) with hs'
  have hs2 : s' = (s.map (reorderWalls ow) id).map (reorder o) id := by
    rw [hs', h.gravity, h.walls, h.particles]
    rfl
  have hR2 : mirSetup sg c R R.svd R.sched = { R with objs := R.objs.map (mirObj sg c) } := by
    simp only [mirSetup, h.ref]
  have hrun : runProgram (mirSetup sg c R R.svd R.sched) i e fuel s' =
      .finished ((r.map (reorderWalls ow) id).map (reorder o) id) := by
    rw [hR2, C107_objects h.objs, hs2, C62_order hR (by exact h.order), C107_walls (by exact h.wallOrder), hfin]
    rfl
  obtain ⟨r', h1, -, -, -, -, hout⟩ := run_mir (svd' := R.svd) (sched' := R.sched) hops hA0 hP hd hdx hm hpbc hc hR hR hne hpl hfr hlat
    (fun s1 dt g1 w hst o ho p hp => plasticUpdate_mir_regular (hinv s1 dt g1 w hst o ho p hp) hsvd hsvd dt) hfin
    (by rw [hrun]; simp)
  rw [hrun] at h1
  obtain rfl := Result.finished.inj h1
  rw [show ((r.map (reorderWalls ow) id).map (reorder o) id).out =
    r.out.map fun ev => Event.map (reorder o) (Event.map (reorderWalls ow) ev) by
      simp [LoopState.map, Function.comp_def], List.forall₂_map_right_iff] at hout
  have hself : ∀ ev ∈ r.out, FileRel (Mirrored sg c) ev (Event.map (reorder o) (Event.map (reorderWalls ow) ev)) := by
    have : ∀ l : List (Event (World (d + 2))), List.Forall₂ (fun a b => FileRel (Mirrored sg c) a
        (Event.map (reorder o) (Event.map (reorderWalls ow) b))) l l → ∀ ev ∈ l,
        FileRel (Mirrored sg c) ev (Event.map (reorder o) (Event.map (reorderWalls ow) ev)) := by
      intro l hl
      exact List.forall₂_same.mp hl
    exact this _ hout
  have hfinal : ∀ w, Mirrored sg c w (reorder o (reorderWalls ow w)) → SymmetricState sg c o ow w := fun w hw =>
    ⟨hw.ps.symm, hw.plates.symm, hw.rows⟩
  rintro n t w (hw | hw)
  · have := hself _ hw
    simp only [Event.map] at this
    cases this with
    | particles _ _ h => exact hfinal w h
  · have := hself _ hw
    simp only [Event.map] at this
    cases this with
    | grid _ _ h => exact hfinal w h

end

/-- **C108** (2D) If the initial state of a finished run is its own mirror image (and in the reversed directions its extent is a whole
number of cells), then so are all files of the run. -/
theorem C108_2d {R : Setup 2} (hops : R.ops = plateOps2) {sg : Fin 2 → ℤˣ} {c : Fin 2 → ℝ}
    (hR : ∀ k ps, (R.sched k ps).flatten.Perm ps)
    {deg : Deg} {dx fr m vol : ℝ} {mibf : Bool} {i e : Bool} {fuel : ℕ}
    (hP : R.S.P = mkTransferParams deg dx fr mibf m vol) (hd : deg ≠ .one) (hdx : 0 < dx) (hm : 0 < m)
    (hpbc : R.S.pbc = false) (hc : R.S.changePos = false)
    {ps : List (Particle 2 ℝ)} (hne : ps ≠ []) {plates : List (Plate 2)} {g : Fin 2 → ℝ}
    (hpl : mibf = false → ∀ p ∈ plates, 0 ≤ p.friction)
    (hfr : mibf = true → FrictionIn (d := 0) R (newState ps plates g) (Set.Ici 0))
    (hlat : ∀ a, sg a = -1 → ∀ lo hi, IsLeast (coords R.S.ref (ps.map fun p => p.x) a) lo →
      IsGreatest (coords R.S.ref (ps.map fun p => p.x) a) hi → ∃ k : ℤ, hi = lo + k * dx)
    (hsvd : ∀ F, F.det ≠ 0 → IsSvd F (R.svd F)) (hinv : Invertible (d := 0) R ps plates g)
    {o ow : List ℕ} (h : SymmetricProblem (d := 0) sg c R ps plates g o ow)
    {r : LoopState 2 (World 2)} (hfin : runProgram (d := 0) R i e fuel (newState ps plates g) = .finished r) :
    ∀ n t w, (.particles n t w ∈ r.out ∨ .grid n t w ∈ r.out) → SymmetricState (d := 0) sg c o ow w :=
  run_sym (d := 0) (A := Set.Ici 0) (by rw [hops]; exact plateMir2 sg c) (by simp) hP hd hdx hm hpbc hc hR hne hpl hfr hlat hsvd hinv h
    hfin

/-- **C108** (3D) The same, for walls with any friction. -/
theorem C108_3d {R : Setup 3} (hops : R.ops = plateOps3) {sg : Fin 3 → ℤˣ} {c : Fin 3 → ℝ}
    (hR : ∀ k ps, (R.sched k ps).flatten.Perm ps)
    {deg : Deg} {dx fr m vol : ℝ} {mibf : Bool} {i e : Bool} {fuel : ℕ}
    (hP : R.S.P = mkTransferParams deg dx fr mibf m vol) (hd : deg ≠ .one) (hdx : 0 < dx) (hm : 0 < m)
    (hpbc : R.S.pbc = false) (hc : R.S.changePos = false)
    {ps : List (Particle 3 ℝ)} (hne : ps ≠ []) {plates : List (Plate 3)} {g : Fin 3 → ℝ}
    (hlat : ∀ a, sg a = -1 → ∀ lo hi, IsLeast (coords R.S.ref (ps.map fun p => p.x) a) lo →
      IsGreatest (coords R.S.ref (ps.map fun p => p.x) a) hi → ∃ k : ℤ, hi = lo + k * dx)
    (hsvd : ∀ F, F.det ≠ 0 → IsSvd F (R.svd F)) (hinv : Invertible (d := 1) R ps plates g)
    {o ow : List ℕ} (h : SymmetricProblem (d := 1) sg c R ps plates g o ow)
    {r : LoopState 3 (World 3)} (hfin : runProgram (d := 1) R i e fuel (newState ps plates g) = .finished r) :
    ∀ n t w, (.particles n t w ∈ r.out ∨ .grid n t w ∈ r.out) → SymmetricState (d := 1) sg c o ow w :=
  run_sym (d := 1) (A := Set.univ) (by rw [hops]; exact plateMir3 sg c) trivial hP hd hdx hm hpbc hc hR hne
    (fun _ _ _ => trivial) (fun _ => ⟨fun _ _ _ _ _ _ _ _ _ _ => trivial, fun _ _ _ _ _ _ _ _ => trivial⟩) hlat hsvd hinv h hfin

end Verif.Props
