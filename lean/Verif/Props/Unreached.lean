import Verif.Props.Textbook
import Verif.Props.OwnFriction

set_option linter.unusedSectionVars false
set_option linter.unusedSimpArgs false
set_option linter.unusedVariables false

/-!
# C127: walls that are never hit leave no trace

If in no step of a run a node of the grid with mass is about to be inside certain plates and objects, then the run without
these plates and objects is the same.
-/

namespace Verif.Props
open Verif Matrix

/-! ### spec -/

/-- Spec: the position the node at `X` is about to have after the step, before any wall acts on it: it moves with its
velocity, changed by the stresses and gravity. -/
noncomputable def aboutToBe {d : ℕ} (S : Mpm.Scheme d) (ps : List (Particle d ℝ)) (X : Fin d → ℝ) : Fin d → ℝ :=
  X + S.dt • (S.before ps X + S.dt • ((1 / S.nodeMass ps X) • S.nodeForce ps X + S.gravity))

/-- Spec: the program without the objects marked by `O`. -/
def withoutObjects {d : ℕ} (O : GenObject d → Bool) (R : Setup d) : Setup d := { R with objs := R.objs.filter fun o => !O o }

/-- Spec: the state without the plates marked by `E`. -/
def withoutPlates {d : ℕ} (E : Plate d → Bool) (w : World d) : World d := { w with plates := w.plates.filter fun p => !E p }

/-- Spec: in the step from `s1` to `w`, no node with mass is about to be inside one of the marked walls. -/
def NotHit {d : ℕ} (R : Setup (d + 2)) (O : GenObject (d + 2) → Bool) (E : Plate (d + 2) → Bool)
    (w0 : World (d + 2)) (dt : ℝ) (g : Fin (d + 2) → ℝ) (w : World (d + 2)) : Prop :=
  let S := schemeOf R 0 dt g w0.plates
  ∀ i, IsNode w.g i → 0 < S.nodeMass w0.ps (nodeAt w.g i) →
    (∀ o ∈ R.objs, O o = true → ¬ o.inside (aboutToBe S w0.ps (nodeAt w.g i))) ∧
    ∀ p ∈ w0.plates, E p = true → ¬ R.ops.inside p (aboutToBe S w0.ps (nodeAt w.g i))

/-! ### proof -/

lemma foldl_filter_id {α β : Type*} {f : β → α → β} {O : α → Bool} : ∀ {l : List α} (b : β),
    (∀ a ∈ l, O a = true → ∀ b, f b a = b) → (l.filter fun a => !O a).foldl f b = l.foldl f b
  | [], _, _ => rfl
  | a :: l, b, h => by
    rw [List.filter_cons]
    have ih := fun b => foldl_filter_id (f := f) (O := O) (l := l) b fun a ha => h a (by simp [ha])
    by_cases ho : O a = true
    · rw [if_neg (by simp [ho]), List.foldl_cons, h a (by simp) ho]
      exact ih b
    · rw [if_pos (by simpa using ho), List.foldl_cons, List.foldl_cons]
      exact ih _

lemma collide_without {d : ℕ} {objs : List (GenObject d)} {plates : List (Plate d)} {ops : PlateOps d} {fr : ℝ → ℝ}
    {O : GenObject d → Bool} {E : Plate d → Bool} {Y v : Fin d → ℝ} (h1 : ∀ o ∈ objs, O o = true → ¬ o.inside Y)
    (h2 : ∀ pl ∈ plates, E pl = true → ¬ ops.inside pl Y) :
    collidePlates ops.inside ops.rel fr Y (plates.filter fun p => !E p) (collideObjects fr Y (objs.filter fun o => !O o) v) =
      collidePlates ops.inside ops.rel fr Y plates (collideObjects fr Y objs v) := by
  unfold collidePlates collideObjects
  rw [foldl_filter_id _ fun o ho hO b => if_neg (h1 o ho hO), foldl_filter_id _ fun p hp hE b => if_neg (h2 p hp hE)]

lemma eulerUpdate_congr {d : ℕ} (P : TransferParams ℝ) (dt : ℝ) (gr : Fin d → ℝ) {bc bc' : ℕ → (Fin d → ℝ) → (Fin d → ℝ) → (Fin d → ℝ)}
    (g : Axes d ℝ) (arr : GridArr d ℝ) (hbc : ∀ i, IsNode g i → 0 < (arr (flatIndex g.size i)).mass →
      bc' (flatIndex g.size i) (nodeAt g i) ((arr (flatIndex g.size i)).v + incrAt P dt gr (arr (flatIndex g.size i))) =
        bc (flatIndex g.size i) (nodeAt g i) ((arr (flatIndex g.size i)).v + incrAt P dt gr (arr (flatIndex g.size i)))) :
    eulerUpdate P dt gr bc' g arr = eulerUpdate P dt gr bc g arr := by
  have hoff : ∀ bc : ℕ → (Fin d → ℝ) → (Fin d → ℝ) → (Fin d → ℝ), ∀ l, (∀ i, IsNode g i → flatIndex g.size i ≠ l) →
      (eulerUpdate P dt gr bc g arr).v l = (arr l).v ∧ (eulerUpdate P dt gr bc g arr).flip l = 0 :=
    fun bc l hl => by
      unfold eulerUpdate
      have : ∀ L : List (Fin d → ℕ), (∀ i ∈ L, IsNode g i) → ∀ e : EulerArr d ℝ,
          (L.foldl (fun e i => eulerNode P dt gr bc arr (flatIndex g.size i) (nodePosOf g i) e) e).v l = e.v l ∧
          (L.foldl (fun e i => eulerNode P dt gr bc arr (flatIndex g.size i) (nodePosOf g i) e) e).flip l = e.flip l := by
        intro L
        induction L with
        | nil => intro _ e; exact ⟨rfl, rfl⟩
        | cons i L ih =>
          intro hL e
          rw [List.foldl_cons, (ih (fun j hj => hL j (List.mem_cons_of_mem _ hj)) _).1,
            (ih (fun j hj => hL j (List.mem_cons_of_mem _ hj)) _).2]
          have hne := (hl i (hL i List.mem_cons_self)).symm
          unfold eulerNode
          by_cases hm : (arr (flatIndex g.size i)).mass > 0
          · simp only [hm, if_true, Function.update_of_ne hne, and_self]
          · simp only [hm, if_false, and_self]
      exact this _ (fun i hi => mem_allNodes.mp hi) _
  have hv : ∀ l, (eulerUpdate P dt gr bc' g arr).v l = (eulerUpdate P dt gr bc g arr).v l ∧
      (eulerUpdate P dt gr bc' g arr).flip l = (eulerUpdate P dt gr bc g arr).flip l := by
    intro l
    by_cases hl : ∃ i, IsNode g i ∧ flatIndex g.size i = l
    · obtain ⟨i, hi, rfl⟩ := hl
      have a := eulerUpdate_at P dt gr bc' g arr hi
      have b := eulerUpdate_at P dt gr bc g arr hi
      simp only at a b
      rw [a.1, a.2, b.1, b.2]
      by_cases hm : (arr (flatIndex g.size i)).mass > 0
      · simp only [if_pos hm, hbc i hi hm, and_self]
      · simp only [if_neg hm, and_self]
    · push Not at hl
      rw [(hoff bc' l hl).1, (hoff bc l hl).1, (hoff bc' l hl).2, (hoff bc l hl).2]
      exact ⟨rfl, rfl⟩
  have e1 : (eulerUpdate P dt gr bc' g arr).v = (eulerUpdate P dt gr bc g arr).v := funext fun l => (hv l).1
  have e2 : (eulerUpdate P dt gr bc' g arr).flip = (eulerUpdate P dt gr bc g arr).flip := funext fun l => (hv l).2
  cases h1 : eulerUpdate P dt gr bc' g arr
  cases h2 : eulerUpdate P dt gr bc g arr
  simp only [h1, h2] at e1 e2
  rw [e1, e2]

section step
variable {d : ℕ} {R : Setup (d + 2)} {deg : Deg} {dx fr m vol dt time : ℝ} {mibf : Bool} {grav : Fin (d + 2) → ℝ}
  {w w' : World (d + 2)} {n : ℕ} {ex : Bool} {O : GenObject (d + 2) → Bool} {E : Plate (d + 2) → Bool}

/-- **C127** One step: without the walls that no node with mass is about to be inside of, the step has the same result. -/
theorem C127_step (hS : R.S.P = mkTransferParams deg dx fr mibf m vol) (hd : deg ≠ .one) (hdx : 0 < dx) (hm : 0 < m)
    (hpbc : R.S.pbc = false) (hsched : ∀ ps, (R.sched n ps).flatten.Perm ps)
    (hE : ∀ p dt t, E (R.ops.move p dt R.C.frameDt t) = E p)
    (h : physStep R w dt grav time n = some (w', ex)) (hhit : NotHit R O E w dt grav w') :
    physStep (withoutObjects O R) (withoutPlates E w) dt grav time n = some (withoutPlates E w', ex) := by
  have hPdx : R.S.P.dx = dx := by rw [hS]; rfl
  have hgood := physStep_goodGrid hpbc (by rw [hPdx]; exact hdx) (by rw [hS]; rfl) h
  rw [hPdx] at hgood
  obtain ⟨bg, hbg, hwg⟩ := physStep_choose h
  simp only [NotHit, hwg] at hhit
  rw [hwg] at hgood
  have hP2G : P2G R.S.P bg.2 (R.sched n w.ps) = some (p2gFinish R.S.P (raw R.S.P deg dx bg.2 w.ps)) := by
    rw [P2G_eq (deg := deg) (dx := dx) (by rw [hS]; rfl) (by rw [hS]; rfl) (hgood.perm (hsched _)), raw_perm (hsched _)]
  have heu : eulerUpdate R.S.P dt grav (boundaryCollision R.ops R.S.P.useMibf
        (fun l => (p2gFinish R.S.P (raw R.S.P deg dx bg.2 w.ps) l).friction) dt (R.objs.filter fun o => !O o) (w.plates.filter fun p => !E p))
        bg.2 (p2gFinish R.S.P (raw R.S.P deg dx bg.2 w.ps)) =
      eulerUpdate R.S.P dt grav (boundaryCollision R.ops R.S.P.useMibf
        (fun l => (p2gFinish R.S.P (raw R.S.P deg dx bg.2 w.ps) l).friction) dt R.objs w.plates)
        bg.2 (p2gFinish R.S.P (raw R.S.P deg dx bg.2 w.ps)) := by
    refine eulerUpdate_congr _ _ _ _ _ fun i hi hmass => ?_
    have hv := Verif.node_values (schemeOf_agrees (o := 0) (dt := dt) (grav := grav) (w := w) hS) hd hdx hm hgood hi
    simp only [← hS] at hv
    obtain ⟨v1, v2, v3, -⟩ := hv
    obtain ⟨a1, a2⟩ := hhit i hi (by rw [← v1]; exact hmass)
    have hY : aboutToBe (schemeOf R 0 dt grav w.plates) w.ps (nodeAt bg.2 i) = nodeAt bg.2 i + dt •
        ((p2gFinish R.S.P (raw R.S.P deg dx bg.2 w.ps) (flatIndex bg.2.size i)).v +
          incrAt R.S.P dt grav (p2gFinish R.S.P (raw R.S.P deg dx bg.2 w.ps) (flatIndex bg.2.size i))) := by
      have hvol : R.S.P.particleVolume = vol := by rw [hS]; rfl
      unfold aboutToBe incrAt
      rw [← v1, ← v2, ← v3, hvol]
      show _ + dt • (_ + dt • (_ + grav)) = _
      congr 3
      rw [smul_add, smul_smul, smul_smul]
      congr 2
      ring
    rw [hY] at a1 a2
    simp only [boundaryCollision]
    exact collide_without a1 a2
  rw [physStep_eq] at h ⊢
  have hbg' : chooseGrid (withoutObjects O R).S ⟨(withoutPlates E w).ps, (withoutPlates E w).box, (withoutPlates E w).g, n⟩ = some bg := hbg
  rw [hbg, Option.bind_some] at h
  rw [hbg', Option.bind_some]
  have hp' : (withoutObjects O R).S.pbc = false := hpbc
  have hP2G' : P2G (withoutObjects O R).S.P bg.2 ((withoutObjects O R).sched n (withoutPlates E w).ps) =
    some (p2gFinish R.S.P (raw R.S.P deg dx bg.2 w.ps)) := hP2G
  simp only [hpbc, Bool.false_eq_true, if_false, List.append_nil, ne_eq, not_true_eq_false, and_false, hP2G, Option.bind_some] at h
  simp only [hp', Bool.false_eq_true, if_false, List.append_nil, ne_eq, not_true_eq_false, and_false, hP2G', Option.bind_some]
  have hmove : (w.plates.map fun p => R.ops.move p dt R.C.frameDt time).filter (fun p => !E p) =
      (w.plates.filter fun p => !E p).map fun p => R.ops.move p dt R.C.frameDt time := by
    rw [List.filter_map]
    congr 1
    refine List.filter_congr fun p _ => ?_
    simp [hE]
  have hal : afterP2G (withoutObjects O R) (withoutPlates E w) dt grav time bg (p2gFinish R.S.P (raw R.S.P deg dx bg.2 w.ps)) =
      (afterP2G R w dt grav time bg (p2gFinish R.S.P (raw R.S.P deg dx bg.2 w.ps))).map (Prod.map (withoutPlates E) id) := by
    unfold afterP2G
    have hg2 : ∀ e, g2pFull (withoutObjects O R) dt bg.2 e (withoutPlates E w).ps = g2pFull R dt bg.2 e w.ps := fun _ => rfl
    have hdf : ∀ a b, deformFull (withoutObjects O R) dt bg.2 a b = deformFull R dt bg.2 a b := fun _ _ => rfl
    have heu' : eulerUpdate (withoutObjects O R).S.P dt grav (boundaryCollision (withoutObjects O R).ops (withoutObjects O R).S.P.useMibf
        (fun l => (p2gFinish R.S.P (raw R.S.P deg dx bg.2 w.ps) l).friction) dt (withoutObjects O R).objs (withoutPlates E w).plates)
        bg.2 (p2gFinish R.S.P (raw R.S.P deg dx bg.2 w.ps)) = _ := heu
    rw [heu', hg2]
    simp only [hdf]
    have hMu : ∀ x y, MUSL (withoutObjects O R).S.P bg.2 x y = MUSL R.S.P bg.2 x y := fun _ _ => rfl
    have hmu : (withoutObjects O R).S.useMusl = R.S.useMusl := rfl
    simp only [hMu, hmu]
    generalize g2pFull R dt bg.2 _ w.ps = A
    cases A with
    | none => rfl
    | some qs =>
      simp only [Option.bind_some]
      generalize (if R.S.useMusl = true then _ else _ : Option (List (Particle (d + 2) ℝ × Bool) × (ℕ → Fin (d + 2) → ℝ))) = B
      cases B with
      | none => rfl
      | some qv =>
        simp only [Option.bind_some, Option.map_some, Prod.map, id]
        congr 2
        simp only [withoutPlates, hmove]
        rfl
  rw [hal, h]
  rfl

end step

section run
variable {d : ℕ}

/-- A map of worlds that commutes with the steps taken in a run that ends normally commutes with the run. -/
lemma loop_map_taken {C : TimeConfig d} {W W' : Type*} {ph : Physics d W} {ph' : Physics d W'} {f : W → W'} {gf : Fin d → ℝ}
    {s0 : LoopState d W} (hspeed : ∀ w, ph'.velocities (f w) = ph.velocities w)
    (hstep : ∀ k s dt g w, StepTaken C ph gf s0 k s dt g w → ph'.step (f s.w) dt g s.time s.step = some (f w, false)) :
    ∀ (fuel k : ℕ) (s r : LoopState d W), Reach C ph gf s0 k s → loop C ph gf fuel s = .finished r →
      loop C ph' gf fuel (s.map f id) = .finished (r.map f id) := by
  intro fuel
  induction fuel with
  | zero =>
    intro k s r _ h
    unfold loop at h ⊢
    have h1 : (s.map f id).frame = s.frame := rfl
    rw [h1, finish_map]
    split_ifs at h ⊢ with hf
    injection h with h
    rw [h]
  | succ fuel ih =>
    intro k s r hr h
    unfold loop at h ⊢
    have h1 : (s.map f id).frame = s.frame := rfl
    rw [h1, finish_map]
    by_cases hf : s.frame < C.endFrame
    swap
    · rw [if_neg hf] at h ⊢
      injection h with h
      rw [h]
    rw [if_pos hf] at h ⊢
    rcases loopBody_cases (C := C) (ph := ph) (gf := gf) s with hb | ⟨_, _, _, _, _, hb⟩ | ⟨dt, g, w, hu, -, -, -, hst, hb⟩
    · rw [hb] at h; cases h
    · rw [hb] at h; cases h
    have hst' := hstep k s dt g w ⟨hr, hf, hu, hst⟩
    have hu' : updateDt C gf (s.map f id).frame (s.map f id).time (ph'.velocities (s.map f id).w) (s.map f id).gravity = some (dt, g) := by
      show updateDt C gf s.frame s.time (ph'.velocities (f s.w)) s.gravity = _
      rw [hspeed]
      exact hu
    have hcase := loopBody_cases (C := C) (ph := ph') (gf := gf) (s.map f id)
    rcases hcase with hb' | ⟨dt', g', w', hu2, hst2, hb'⟩ | ⟨dt', g', w', hu2, -, -, -, hst2, hb'⟩
    · exfalso
      unfold loopBody at hb'
      rw [hu'] at hb'
      simp only at hb'
      have e : ph'.step (s.map f id).w dt g (s.map f id).time (s.map f id).step = some (f w, false) := hst'
      rw [e] at hb'
      simp only at hb'
      split_ifs at hb'
    · rw [hu'] at hu2
      obtain ⟨rfl, rfl⟩ := Prod.mk.inj (Option.some.inj hu2)
      have e : ph'.step (s.map f id).w dt g (s.map f id).time (s.map f id).step = some (f w, false) := hst'
      rw [e] at hst2
      cases hst2
    · rw [hu'] at hu2
      obtain ⟨rfl, rfl⟩ := Prod.mk.inj (Option.some.inj hu2)
      have e : ph'.step (s.map f id).w dt g (s.map f id).time (s.map f id).step = some (f w, false) := hst'
      rw [e] at hst2
      obtain ⟨rfl, -⟩ := Prod.mk.inj (Option.some.inj hst2)
      have hE : endOfFrame C { (s.map f id) with w := f w, gravity := g, time := (s.map f id).time + dt, step := (s.map f id).step + 1 } =
          (endOfFrame C { s with w := w, gravity := g, time := s.time + dt, step := s.step + 1 }).map f id :=
        endOfFrame_map C f id { s with w := w, gravity := g, time := s.time + dt, step := s.step + 1 }
      simp only [hE] at hb'
      set t := endOfFrame C { s with w := w, gravity := g, time := s.time + dt, step := s.step + 1 } with ht
      have ht2 : (t.map f id).time = t.time := rfl
      rw [ht2] at hb'
      simp only at hb
      rw [hb] at h
      rw [hb']
      by_cases hc : |C.finalTime - t.time| < C.minDt * (11 / 10) ∨ C.finalTime < t.time
      · rw [if_pos hc] at h ⊢
        simp only at h ⊢
        injection h with h
        rw [saveFrame_map, finish_map, h]
      · rw [if_neg hc] at h ⊢ hb
        simp only at h ⊢
        exact ih (k + 1) t r (.next hr hf hb) h

variable {R : Setup (d + 2)} {deg : Deg} {dx fr m vol : ℝ} {mibf : Bool} {O : GenObject (d + 2) → Bool} {E : Plate (d + 2) → Bool}
  {s r : LoopState (d + 2) (World (d + 2))}

/-- **C127** Let a run end normally, and let no node with mass in any of its steps be about to be inside one of the marked
plates and objects (the plates may move). Then the run without these plates and objects also ends normally, after the same
steps, and its files hold the same particles, nodes and other plates at the same times. -/
theorem C127_run (hS : R.S.P = mkTransferParams deg dx fr mibf m vol) (hd : deg ≠ .one) (hdx : 0 < dx) (hm : 0 < m)
    (hpbc : R.S.pbc = false) (hsched : ∀ k ps, (R.sched k ps).flatten.Perm ps)
    (hE : ∀ p dt t, E (R.ops.move p dt R.C.frameDt t) = E p)
    (hhit : ∀ s1 dt g w, StepOf R s s1 dt g w → NotHit R O E s1.w dt g w) {i e : Bool} {fuel : ℕ}
    (h : runProgram R i e fuel s = .finished r) :
    runProgram (withoutObjects O R) i e fuel (s.map (withoutPlates E) id) = .finished (r.map (withoutPlates E) id) := by
  unfold runProgram at h ⊢
  by_cases ha : accepted i R.m.elastic R.m.plastic e = true
  swap
  · rw [if_neg ha] at h; cases h
  rw [if_pos ha] at h
  refine (if_pos ha).trans ?_
  show simulate R.C (physics (withoutObjects O R)) i R.m.elastic R.m.plastic e fuel _ = _
  rw [simulate_eq ha] at h ⊢
  have key := loop_map_taken (C := R.C) (ph := physics R) (ph' := physics (withoutObjects O R)) (f := withoutPlates E)
    (gf := s.gravity) (s0 := begin R s) (fun w => rfl)
    (fun k s1 dt g w hst => C127_step hS hd hdx hm hpbc (hsched _) hE (show StepOf R s s1 dt g w from ⟨k, hst⟩).phys
      (hhit s1 dt g w ⟨k, hst⟩)) fuel 0 (begin R s) r .start h
  rw [← key]
  show loop R.C _ s.gravity fuel (startState R.C _) = _
  congr 1
  have e1 : fillMuI R.m R.S.P.useMibf (withoutPlates E s.w) = withoutPlates E (fillMuI R.m R.S.P.useMibf s.w) := by
    unfold fillMuI
    cases R.S.P.useMibf <;> rfl
  simp only [begin, startState, LoopState.map]
  have e2 : fillMuI (withoutObjects O R).m (withoutObjects O R).S.P.useMibf (withoutPlates E s.w) = withoutPlates E (fillMuI R.m R.S.P.useMibf s.w) := e1
  rw [e2]
  split_ifs
  · simp [Event.map]
  · simp

end run

end Verif.Props
