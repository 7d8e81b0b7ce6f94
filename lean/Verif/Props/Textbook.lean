import Verif.Lemmas.Textbook
import Verif.Props.FreeFall
import Verif.Props.GridFile
import Verif.Props.GridExamples
import Verif.Props.Local
import Verif.Props.WallMomentum

set_option linter.unusedSectionVars false
set_option linter.unusedSimpArgs false
set_option linter.unusedVariables false

/-!
# C105: the program carries out the textbook material point method

`Verif.Mpm.Scheme.step` (Spec/Mpm.lean) is one step of the method written with sums over all particles and over all nodes of
an infinite lattice. The program works on a finite box of nodes that it moves along with the particles, stores the nodes in
one array, visits the particles in the order of the threads and only a block of nodes for each particle. The theorems say
that the results are the same.
-/

namespace Verif.Props
open Verif Matrix

section step
variable {d : ℕ} {R : Setup (d + 2)} {deg : Deg} {dx fr m vol dt time : ℝ} {mibf : Bool} {grav o : Fin (d + 2) → ℝ}
  {w w' : World (d + 2)} {n : ℕ} {ex : Bool}

/-- A step on a grid that contains the particles is a step of the method, also when it fails. -/
lemma step_scheme (hP : R.S.P = mkTransferParams deg dx fr mibf m vol) (hd : deg ≠ .one) (hdx : 0 < dx) (hm : 0 < m)
    (hpbc : R.S.pbc = false) (hsched : ∀ ps, (R.sched n ps).flatten.Perm ps)
    {bg : Option (Fin (d + 2) → AxisInit ℝ) × Axes (d + 2) ℝ} (hbg : chooseGrid R.S ⟨w.ps, w.box, w.g, n⟩ = some bg)
    (hg : GoodGrid dx bg.2 w.ps) (ho : OnLattice o dx bg.2) :
    (physStep R w dt grav time n).map (fun r => (r.1.ps, r.2)) = (schemeOf R o dt grav w.plates).step w.ps := by
  rw [physStep_good (deg := deg) (dx := dx) hpbc (by rw [hP]; rfl) (by rw [hP]; rfl) hsched hbg hg, Option.map_map]
  unfold Mpm.Scheme.step
  rw [← mapM_congr' (f := fun p => (particleStep R deg dx dt grav bg.2 w p).map fun q =>
      (positionParticle R.S.P R.S.useMusl false R.S.changePos (R.S.L 0) dt q.1, q.2))
    fun p hp => particleStep_scheme (o := o) hP hd hdx hm hg ho hp]
  have key : ∀ l : List (Particle (d + 2) ℝ), l.mapM (fun p => (particleStep R deg dx dt grav bg.2 w p).map fun q =>
      (positionParticle R.S.P R.S.useMusl false R.S.changePos (R.S.L 0) dt q.1, q.2)) =
      (l.mapM (particleStep R deg dx dt grav bg.2 w)).map fun qs => qs.map fun q =>
        (positionParticle R.S.P R.S.useMusl false R.S.changePos (R.S.L 0) dt q.1, q.2) := by
    intro l
    induction l with
    | nil => rfl
    | cons p l ih =>
      rw [List.mapM_cons, List.mapM_cons, ih]
      cases particleStep R deg dx dt grav bg.2 w p with
      | none => rfl
      | some q => cases l.mapM (particleStep R deg dx dt grav bg.2 w) <;> rfl
  rw [key, Option.map_map]
  congr 1
  funext qs
  simp only [Function.comp, List.map_map, List.any_map, Prod.mk.injEq]
  exact ⟨rfl, rfl⟩

/-- **C105** One step of the program without periodic boundaries is one step of the method on any lattice that contains the
nodes of its grid: same particles in the same order, same decision whether to end the run. On the grid, the masses, the
velocities (those used for the deformation) and the friction coefficients are the values of the method's fields at the
positions of the nodes, and no node with mass is missing. -/
theorem C105_step (hP : R.S.P = mkTransferParams deg dx fr mibf m vol) (hd : deg ≠ .one) (hdx : 0 < dx) (hm : 0 < m)
    (hpbc : R.S.pbc = false) (hsched : ∀ ps, (R.sched n ps).flatten.Perm ps)
    (h : physStep R w dt grav time n = some (w', ex)) (ho : OnLattice o dx w'.g) :
    let S := schemeOf R o dt grav w.plates
    S.step w.ps = some (w'.ps, ex) ∧ (w'.plates = w.plates.map fun p => R.ops.move p dt R.C.frameDt time) ∧
    (∀ i, IsNode w'.g i → (∃ k, nodeAt w'.g i = S.node k) ∧
      w'.mass (flatIndex w'.g.size i) = S.nodeMass w.ps (nodeAt w'.g i) ∧
      w'.vel (flatIndex w'.g.size i) = S.deforming w.ps (nodeAt w'.g i) ∧
      w'.friction (flatIndex w'.g.size i) = S.nodeFriction w.ps (nodeAt w'.g i)) ∧
    ∀ k, S.nodeMass w.ps (S.node k) ≠ 0 → ∃ i, IsNode w'.g i ∧ nodeAt w'.g i = S.node k := by
  intro S
  have hPdx : R.S.P.dx = dx := by rw [hP]; rfl
  have hgood := physStep_goodGrid hpbc (by rw [hPdx]; exact hdx) (by rw [hP]; rfl) h
  rw [hPdx] at hgood
  obtain ⟨bg, hbg, hwg⟩ := physStep_choose h
  rw [hwg] at hgood ho
  have hst := step_scheme (dt := dt) (grav := grav) (time := time) hP hd hdx hm hpbc hsched hbg hgood ho
  rw [h, Option.map_some] at hst
  have hA : Agrees S deg dx fr mibf m vol := schemeOf_agrees hP
  have hSo : S.origin = o := rfl
  refine ⟨hst.symm, physStep_plates h, ?_, ?_⟩
  · rw [physStep_good (deg := deg) (dx := dx) hpbc (by rw [hP]; rfl) (by rw [hP]; rfl) hsched hbg hgood] at h
    obtain ⟨qs, -, hq⟩ := Option.map_eq_some_iff.mp h
    injection hq with hq _
    subst hq
    intro i hi
    simp only at hi ⊢
    have hv := Verif.node_values hA hd hdx hm hgood hi
    simp only [← hP] at hv
    refine ⟨?_, hv.1, step_deforming hP hd hdx hm hgood ho hi, hv.2.2.2⟩
    choose k hk using fun a => ho a _ (List.getElem_mem (hi a))
    refine ⟨k, ?_⟩
    funext a
    rw [Mpm.Scheme.node, hSo, hA.dx, ← hk a, nodeAt]
    simp [List.getD_eq_getElem?_getD, List.getElem?_eq_getElem (hi a)]
  · intro k hk
    rw [hwg]
    obtain ⟨p, hp, hs⟩ : ∃ p ∈ w.ps, shape deg dx (S.node k) p.x ≠ 0 := by
      by_contra hno
      push Not at hno
      apply hk
      unfold Mpm.Scheme.nodeMass
      refine List.sum_eq_zero fun y hy => ?_
      obtain ⟨p, hp, rfl⟩ := List.mem_map.mp hy
      rw [hA.deg, hA.dx, hno p (List.mem_of_mem_filter hp), mul_zero]
    have hgd := hgood.good (deg := deg) hp
    have hnear : ∀ a, ∃ j, ∃ hj : j < (bg.2 a).length, (bg.2 a)[j] = S.node k a := by
      intro a
      obtain ⟨b, hb1, hb2⟩ := hgd.near hdx hgood.uniform ho a
      have : |(p.x a - (o a + k a * dx)) / dx| < 2 := by
        by_contra hfar
        apply hs
        refine shape_far (a := a) ?_
        rw [Mpm.Scheme.node, hSo, hA.dx]
        exact not_lt.mp hfar
      obtain ⟨i, hi⟩ := hb2 _ this
      obtain ⟨hlt, hxi⟩ := hgd.xi a i
      refine ⟨_, hlt, ?_⟩
      rw [← hxi.1, hb1 i, ← hi, Mpm.Scheme.node, hSo, hA.dx]
    choose j hj hj2 using hnear
    refine ⟨j, hj, ?_⟩
    funext a
    rw [← hj2 a, nodeAt]
    simp [List.getD_eq_getElem?_getD, List.getElem?_eq_getElem (hj a)]

end step

section run
variable {d : ℕ} {R : Setup (d + 2)} {deg : Deg} {dx fr m vol : ℝ} {mibf : Bool} {i e : Bool} {fuel : ℕ}
  {s : LoopState (d + 2) (World (d + 2))}

/-- Gravity at time `t`: possibly increased linearly up to `gravityTime`. -/
noncomputable def gravityAt (R : Setup (d + 2)) (g : Fin (d + 2) → ℝ) (t : ℝ) : Fin (d + 2) → ℝ :=
  if R.C.gravitySpecial = true ∧ t < R.C.gravityTime then (t / R.C.gravityTime) • g else g

/-- The particle at the start of a run: with material-induced boundary friction it gets the friction coefficient of the
material. -/
def withFriction (R : Setup (d + 2)) (p : Particle (d + 2) ℝ) : Particle (d + 2) ℝ :=
  if R.S.P.useMibf then
    { p with muI := if R.m.plastic = .dpMui ∨ R.m.plastic = .mccMui then R.m.mu1 else R.m.M }
  else p

/-- What the method makes of the initial state of a run, on the lattice through `o`. -/
abbrev Simulated (R : Setup (d + 2)) (s : LoopState (d + 2) (World (d + 2))) (o : Fin (d + 2) → ℝ) (dts : List ℝ)
    (ps : List (Particle (d + 2) ℝ)) (plates : List (Plate (d + 2))) (t : ℝ) : Prop :=
  Mpm.Evolves (schemeOf R o) (gravityAt R s.gravity) (fun dt t p => R.ops.move p dt R.C.frameDt t)
    (s.w.ps.map (withFriction R)) s.w.plates dts ps plates t

lemma begin_withFriction : (begin R s).w.ps = s.w.ps.map (withFriction R) := by
  rw [begin_w]
  unfold fillMuI withFriction
  by_cases hu : R.S.P.useMibf = true
  · simp only [if_pos hu]
  · simp only [if_neg hu, List.map_id']

lemma begin_walls : (begin R s).w.plates = s.w.plates := by
  rw [begin_w]
  unfold fillMuI
  split_ifs <;> rfl

lemma StepOf.gravity_at {s1 : LoopState (d + 2) (World (d + 2))} {dt : ℝ} {g : Fin (d + 2) → ℝ} {w : World (d + 2)}
    (h : StepOf R s s1 dt g w) : g = gravityAt R s.gravity s1.time := by
  obtain ⟨k, hr, -, hu, -⟩ := h
  obtain ⟨h1, h2, h3⟩ := C23_gravity (s0 := { s with w := fillMuI R.m R.S.P.useMibf s.w }) hr hu
  unfold gravityAt
  by_cases hs : R.C.gravitySpecial = true
  · by_cases ht : s1.time < R.C.gravityTime
    · rw [if_pos ⟨hs, ht⟩]; exact h2 hs ht
    · rw [if_neg fun h => ht h.2]; exact h3 hs (not_lt.mp ht)
  · rw [if_neg fun h => hs h.1]; exact h1 (by simpa using hs)

section
variable (hP : R.S.P = mkTransferParams deg dx fr mibf m vol) (hd : deg ≠ .one) (hdx : 0 < dx) (hm : 0 < m)
  (hpbc : R.S.pbc = false) (hfresh : s.step = 0) (hne : s.w.ps ≠ []) (hsched : ∀ k ps, (R.sched k ps).flatten.Perm ps)
  {o : Fin (d + 2) → ℝ} (ho : ∀ a, IsLeast (coords R.S.ref (s.w.ps.map fun p => p.x) a) (o a))
include hP hd hdx hm hpbc hfresh hne hsched ho

lemma step_onLattice {s1 : LoopState (d + 2) (World (d + 2))} {dt : ℝ} {g : Fin (d + 2) → ℝ} {w : World (d + 2)}
    (hst : StepOf R s s1 dt g w) : OnLattice o dx w.g := by
  obtain ⟨m0, h0, h1⟩ := run_lattice (by rw [hP]; rfl) hdx hpbc hfresh hne hst
  have : m0 = o := funext fun a => (h0 a).unique (ho a)
  exact this ▸ h1

lemma simulated_step {s1 : LoopState (d + 2) (World (d + 2))} {dt : ℝ} {g : Fin (d + 2) → ℝ} {w : World (d + 2)}
    (hst : StepOf R s s1 dt g w) :
    (∃ dts, Simulated R s o dts s1.w.ps s1.w.plates s1.time ∧ ∀ x ∈ dts, R.C.minDt ≤ x) ∧
    ∃ dts, Simulated R s o dts w.ps w.plates (s1.time + dt) ∧ ∀ x ∈ dts, R.C.minDt ≤ x := by
  refine run_inv (R := R) (s := s)
    (Inv := fun w t _ _ => ∃ dts, Simulated R s o dts w.ps w.plates t ∧ ∀ x ∈ dts, R.C.minDt ≤ x) ?_ ?_ hst
  · refine ⟨[], ?_, by simp⟩
    rw [begin_withFriction, begin_walls]
    exact .start
  · rintro s1 dt g w hst ⟨dts, he, hdts⟩
    refine ⟨dts ++ [dt], ?_, ?_⟩
    · have := C105_step hP hd hdx hm hpbc (hsched _) hst.phys
        (step_onLattice hP hd hdx hm hpbc hfresh hne hsched ho hst)
      rw [this.2.1]
      refine .step he ?_
      rw [← hst.gravity_at]
      exact this.1
    · intro x hx
      rcases List.mem_append.mp hx with hx | hx
      · exact hdts x hx
      · rw [List.mem_singleton.mp hx]; exact hst.dt_ge.1

/-- **C105** The particles in every file of a run that starts afresh without periodic boundaries are those of the method,
carried out on the infinite lattice through the lower corner of the initial cloud (and the reference point), after steps
whose lengths sum up to the time of the file. The walls are those of the method too. -/
theorem C105_run {n : ℕ} {t : ℝ} {w : World (d + 2)} (hev : .particles n t w ∈ filesOf (runProgram R i e fuel s))
    (hnew : .particles n t w ∉ s.out) :
    ∃ dts, Simulated R s o dts w.ps w.plates t ∧ ∀ x ∈ dts, R.C.minDt ≤ x := by
  rcases run_particles hev hnew with ⟨-, rfl, rfl⟩ | ⟨s1, dt, g, hst, rfl⟩
  · refine ⟨[], ?_, by simp⟩
    rw [begin_withFriction, begin_walls]
    exact .start
  · exact (simulated_step hP hd hdx hm hpbc hfresh hne hsched ho hst).2

/-- **C105** The rows of every grid file of such a run are the nodes of the lattice with the mass and the velocity the method
gives them in the last step before the file. No node with mass is missing. -/
theorem C105_grid {n : ℕ} {t : ℝ} {w : World (d + 2)} (hev : .grid n t w ∈ filesOf (runProgram R i e fuel s))
    (hnew : .grid n t w ∉ s.out) :
    ∃ dts ps plates t0 dt, Simulated R s o dts ps plates t0 ∧ t = t0 + dt ∧
      let S := schemeOf R o dt (gravityAt R s.gravity t0) plates
      S.step ps = some (w.ps, false) ∧
      (∀ r ∈ gridRows w, (∃ k, r.1 = S.node k) ∧ r.2.1 = S.deforming ps r.1 ∧ r.2.2 = S.nodeMass ps r.1) ∧
      ∀ k, S.nodeMass ps (S.node k) ≠ 0 → ∃ r ∈ gridRows w, r.1 = S.node k := by
  obtain ⟨s1, dt, g, hst, rfl⟩ := run_grid hev hnew
  obtain ⟨⟨dts, he, -⟩, -⟩ := simulated_step hP hd hdx hm hpbc hfresh hne hsched ho hst
  have := C105_step hP hd hdx hm hpbc (hsched _) hst.phys
    (step_onLattice hP hd hdx hm hpbc hfresh hne hsched ho hst)
  rw [hst.gravity_at] at this
  refine ⟨dts, s1.w.ps, s1.w.plates, s1.time, dt, he, rfl, this.1, ?_, ?_⟩
  · intro r hr
    rw [gridRows_eq] at hr
    obtain ⟨j, hj, rfl⟩ := List.mem_map.mp hr
    have := this.2.2.1 j (mem_allNodes.mp hj)
    exact ⟨this.1, this.2.2.1, this.2.1⟩
  · intro k hk
    obtain ⟨j, hj, e⟩ := this.2.2.2 k hk
    refine ⟨(nodeAt w.g j, w.vel (flatIndex w.g.size j), w.mass (flatIndex w.g.size j)), ?_, e⟩
    rw [gridRows_eq]
    exact List.mem_map.mpr ⟨j, mem_allNodes.mpr hj, rfl⟩

end

/-- The time is the sum of the steps. -/
lemma _root_.Verif.Mpm.Evolves.time {α : Type*} {scheme : ℝ → (Fin d → ℝ) → List α → Mpm.Scheme d}
    {gravity : ℝ → Fin d → ℝ} {move : ℝ → ℝ → α → α} {ps0 ps : List (Particle d ℝ)} {walls0 walls : List α}
    {dts : List ℝ} {t : ℝ} (h : Mpm.Evolves scheme gravity move ps0 walls0 dts ps walls t) : t = dts.sum := by
  induction h with
  | start => rfl
  | step _ _ ih => simp [ih]

end run

/-! ### Examples -/

namespace RunEx

/-- The corner of the pair. -/
lemma pair_corner : ∀ a, IsLeast (coords (none : Option (Fin 2 → ℝ)) (pair.map fun p => p.x) a) ((0 : Fin 2 → ℝ) a) := by
  intro a
  refine ⟨.inl ⟨0, by simp [pair, Particle.init], rfl⟩, ?_⟩
  rintro y (⟨x, hx, rfl⟩ | ⟨r, hr, _⟩)
  · simp only [pair, Particle.init, List.map_cons, List.map_nil, List.mem_cons, List.not_mem_nil, or_false] at hx
    rcases hx with rfl | rfl
    · exact le_refl _
    · fin_cases a <;> simp
  · cases hr

/-- A pair that falls on a tray, with both methods. -/
example (musl : Bool) : ∃ t w, .grid 1 t w ∈
      filesOf (runProgram (setup musl 1 .vm) true false 10 (start pair ![0, -10] tray)) ∧
    ∃ dts ps plates t0 dt, Simulated (setup musl 1 .vm) (start pair ![0, -10] tray) 0 dts ps plates t0 ∧ t = t0 + dt ∧
      let S := schemeOf (setup musl 1 .vm) 0 dt (gravityAt (setup musl 1 .vm) ![0, -10] t0) plates
      S.step ps = some (w.ps, false) ∧
      (∀ r ∈ gridRows w, (∃ k, r.1 = S.node k) ∧ r.2.1 = S.deforming ps r.1 ∧ r.2.2 = S.nodeMass ps r.1) := by
  obtain ⟨t, w, hev⟩ := grid_file musl (ps := pair) (by simp [pair]) (fun p hp => (pair_rest p hp).1) ![0, -10] tray
  obtain ⟨dts, ps, plates, t0, dt, h1, h2, h3, h4, -⟩ := C105_grid (R := setup musl 1 .vm) (s := start pair ![0, -10] tray)
    (deg := .two) (dx := 1) (fr := -19 / 20) (m := 3) (vol := 1) (mibf := false) rfl (by simp) one_pos (by norm_num) rfl rfl (by simp [start, pair])
    (fun _ _ => by simp [setup]) (o := 0) pair_corner hev (by simp [start])
  exact ⟨t, w, hev, dts, ps, plates, t0, dt, h1, h2, h3, h4⟩

/-- The particles of its files. -/
example (musl : Bool) : ∃ t w, .particles 1 t w ∈
      filesOf (runProgram (setup musl 1 .vm) true false 10 (start pair ![0, -10] tray)) ∧
    ∃ dts, Simulated (setup musl 1 .vm) (start pair ![0, -10] tray) 0 dts w.ps w.plates t ∧ t = dts.sum := by
  obtain ⟨t, w, -, hev⟩ := one_frame_of (R := setup musl 1 .vm) (fr := -19 / 20) (musl := musl) (mibf := false) rfl rfl
    (fun _ _ => by simp [setup]) (.inl (.inr (.inl ⟨Ex.mat_ok _, rfl⟩))) (.inr (.inl rfl)) rfl (ps := pair) (by simp [pair])
    (fun p hp => (pair_rest p hp).1) ![0, -10] tray
  obtain ⟨dts, h, -⟩ := C105_run (R := setup musl 1 .vm) (s := start pair ![0, -10] tray)
    (deg := .two) (dx := 1) (fr := -19 / 20) (m := 3) (vol := 1) (mibf := false) rfl (by simp) one_pos (by norm_num) rfl rfl (by simp [start, pair])
    (fun _ _ => by simp [setup]) (o := 0) pair_corner hev (by simp [start])
  exact ⟨t, w, hev, dts, h, h.time⟩

/-- In the first step, the node at the origin gets mass from both particles. -/
example (musl : Bool) (dt : ℝ) (g : Fin 2 → ℝ) :
    (schemeOf (setup musl 1 .vm) 0 dt g tray).nodeMass pair 0 = 3 * (9 / 16) + 3 * (3 / 32) := by
  have h1 : shape .two (1 : ℝ) 0 (0 : Fin 2 → ℝ) = 9 / 16 := by
    simp [shape, Fin.prod_univ_two, N, N2]; norm_num
  have h2 : shape .two (1 : ℝ) 0 (![1, 0] : Fin 2 → ℝ) = 3 / 32 := by
    simp [shape, Fin.prod_univ_two, N, N2]; norm_num
  simp only [Mpm.Scheme.nodeMass, Mpm.Scheme.near, pair, schemeOf, setup, mkTransferParams, Particle.init,
    List.filter_cons, h1, h2]
  norm_num [h1, h2]

end RunEx

end Verif.Props
