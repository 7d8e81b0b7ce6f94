import Verif.Lemmas.Local
import Verif.Props.Order
import Verif.Props.FreeFall
import Verif.Props.OwnFriction

set_option linter.unusedSectionVars false
set_option linter.unusedSimpArgs false
set_option linter.unusedVariables false

/-!
# C97: bodies that do not touch do not influence each other
-/

namespace Verif.Props
open Verif Matrix

/-! ### two loops side by side -/

section loop
variable {d : ℕ} {W : Type*} {C : TimeConfig d} {ph ph' : Physics d W} {gf : Fin d → ℝ} {γ : (Fin d → ℝ) → Fin d → ℝ}

/-- The files with numbers and times equal and contents related. -/
inductive FileRel (rel : W → W → Prop) : Event W → Event W → Prop
  | info : FileRel rel .info .info
  | particles (n : ℕ) (t : ℝ) {w w' : W} : rel w w' → FileRel rel (.particles n t w) (.particles n t w')
  | grid (n : ℕ) (t : ℝ) {w w' : W} : rel w w' → FileRel rel (.grid n t w) (.grid n t w')
  | timing (n : ℕ) : FileRel rel (.timing n) (.timing n)

/-- Two states of the loop at the same time, with related worlds, gravities and files. -/
structure LoopRel (γ : (Fin d → ℝ) → Fin d → ℝ) (rel : W → W → Prop) (o o' : List (Event W)) (s s' : LoopState d W) : Prop where
  w : rel s.w s'.w
  time : s'.time = s.time
  frame : s'.frame = s.frame
  step : s'.step = s.step
  gravity : s'.gravity = γ s.gravity
  out : ∃ l l', s.out = o ++ l ∧ s'.out = o' ++ l' ∧ List.Forall₂ (FileRel rel) l l'

variable {rel : W → W → Prop} {o o' : List (Event W)} {s s' : LoopState d W}

lemma LoopRel.append (h : LoopRel γ rel o o' s s') {l l' : List (Event W)} (hl : List.Forall₂ (FileRel rel) l l') :
    LoopRel γ rel o o' { s with out := s.out ++ l } { s' with out := s'.out ++ l' } := by
  obtain ⟨a, b, c, e, f, m, m', hm, hm', hf⟩ := h
  exact ⟨a, b, c, e, f, m ++ l, m' ++ l', by simp [hm], by simp [hm'], List.rel_append hf hl⟩

lemma LoopRel.saveFrame (h : LoopRel γ rel o o' s s') : LoopRel γ rel o o' (saveFrame C s) (saveFrame C s') := by
  simp only [Verif.saveFrame]
  split_ifs
  · simp only [List.append_assoc]
    refine h.append ?_
    rw [h.frame, h.time]
    exact .cons (.particles _ _ h.w) (.cons (.grid _ _ h.w) .nil)
  · simp only [List.append_assoc]
    refine h.append ?_
    rw [h.frame, h.time]
    exact .cons (.particles _ _ h.w) .nil
  · exact h

lemma LoopRel.finish (h : LoopRel γ rel o o' s s') : LoopRel γ rel o o' (finish C s) (finish C s') := by
  simp only [Verif.finish]
  split_ifs
  · refine h.append ?_
    rw [h.step]
    exact .cons (.timing _) .nil
  · exact h

lemma LoopRel.endOfFrame (h : LoopRel γ rel o o' s s') : LoopRel γ rel o o' (endOfFrame C s) (endOfFrame C s') := by
  simp only [Verif.endOfFrame]
  by_cases hc : C.frameDt * (s.frame + 1) - s.time < C.minDt * (11 / 10)
  · rw [if_pos hc, if_pos (by rw [h.frame, h.time]; exact hc)]
    exact LoopRel.saveFrame ⟨h.w, h.time, by simp [h.frame], h.step, h.gravity, h.out⟩
  · rw [if_neg hc, if_neg (by rw [h.frame, h.time]; exact hc)]
    exact h

/-- Two loops whose steps are related run side by side. -/
lemma loop_rel {s0 s0' : LoopState d W}
    (hdt : ∀ k k' s s' dt g w, StepTaken C ph gf s0 k s dt g w → Reach C ph' (γ gf) s0' k' s' → rel s.w s'.w →
      updateDt C (γ gf) s.frame s.time (ph'.velocities s'.w) (γ s.gravity) = some (dt, γ g))
    (hstep : ∀ k k' s s' dt g w w' ex, StepTaken C ph gf s0 k s dt g w → Reach C ph' (γ gf) s0' k' s' → rel s.w s'.w →
      s'.time = s.time → s'.step = s.step →
      ph'.step s'.w dt (γ g) s'.time s'.step = some (w', ex) → ex = false ∧ rel w w') :
    ∀ (fuel k k' : ℕ) (s s' r : LoopState d W), Reach C ph gf s0 k s → Reach C ph' (γ gf) s0' k' s' → LoopRel γ rel o o' s s' →
      loop C ph gf fuel s = .finished r → loop C ph' (γ gf) fuel s' ≠ .ub →
      ∃ r', loop C ph' (γ gf) fuel s' = .finished r' ∧ LoopRel γ rel o o' r r' := by
  intro fuel
  induction fuel with
  | zero =>
    intro k k' s s' r _ _ hrel h _
    unfold loop at h ⊢
    rw [hrel.frame]
    split_ifs at h ⊢ with hf
    injection h with h
    exact ⟨_, rfl, h ▸ hrel.finish⟩
  | succ fuel ih =>
    intro k k' s s' r hr hr' hrel h hub
    unfold loop at h hub ⊢
    rw [hrel.frame] at hub ⊢
    by_cases hf : s.frame < C.endFrame
    swap
    · rw [if_neg hf] at h ⊢
      injection h with h
      exact ⟨_, rfl, h ▸ hrel.finish⟩
    rw [if_pos hf] at h hub ⊢
    simp only at h hub ⊢
    rcases loopBody_cases (C := C) (ph := ph) (gf := gf) s with hb | ⟨_, _, _, _, _, hb⟩ |
      ⟨dt, g, w, hu, -, -, -, hst, hb⟩
    · rw [hb] at h; cases h
    · rw [hb] at h; cases h
    have htaken : StepTaken C ph gf s0 k s dt g w := ⟨hr, hf, hu, hst⟩
    have hu' : updateDt C (γ gf) s'.frame s'.time (ph'.velocities s'.w) s'.gravity = some (dt, γ g) := by
      rw [hrel.frame, hrel.time, hrel.gravity]
      exact hdt k k' s s' dt g w htaken hr' hrel.w
    rcases loopBody_cases (C := C) (ph := ph') (gf := γ gf) s' with hb' | ⟨dt', g', w', hu2, hst', hb'⟩ |
      ⟨dt', g', w', hu2, -, -, -, hst', hb'⟩
    · rw [hb'] at hub; exact absurd rfl hub
    · rw [hu'] at hu2
      obtain ⟨rfl, rfl⟩ := Prod.mk.inj (Option.some.inj hu2)
      obtain ⟨h0, -⟩ := hstep k k' s s' dt g w w' true htaken hr' hrel.w hrel.time hrel.step hst'
      cases h0
    rw [hu'] at hu2
    obtain ⟨rfl, rfl⟩ := Prod.mk.inj (Option.some.inj hu2)
    obtain ⟨-, hw⟩ := hstep k k' s s' dt g w w' false htaken hr' hrel.w hrel.time hrel.step hst'
    have hrel' : LoopRel γ rel o o' (endOfFrame C { s with w := w, gravity := g, time := s.time + dt, step := s.step + 1 })
        (endOfFrame C { s' with w := w', gravity := γ g, time := s'.time + dt, step := s'.step + 1 }) :=
      LoopRel.endOfFrame ⟨hw, by simp [hrel.time], hrel.frame, by simp [hrel.step], rfl, hrel.out⟩
    simp only at hb hb'
    rw [hrel'.time] at hb'
    rw [hb] at h
    rw [hb'] at hub ⊢
    by_cases hc : |C.finalTime - (endOfFrame C { s with w := w, gravity := g, time := s.time + dt, step := s.step + 1 }).time| < C.minDt * (11 / 10) ∨
        C.finalTime < (endOfFrame C { s with w := w, gravity := g, time := s.time + dt, step := s.step + 1 }).time
    · rw [if_pos hc] at h hub ⊢
      simp only at h ⊢
      injection h with h
      exact ⟨_, rfl, h ▸ hrel'.saveFrame.finish⟩
    · rw [if_neg hc] at h hub hb hb' ⊢
      simp only at h hub ⊢
      refine ih (k + 1) (k' + 1) _ _ r (.next hr hf hb) (.next hr' (by rw [hrel.frame]; exact hf) hb') hrel' h hub

end loop

/-! ### the statement -/

/-- Spec: width of the shape functions, in cells. -/
def width : Deg → ℝ
  | .one => 2
  | .two => 3
  | .three => 4

/-- Spec: in some direction the two points are at least the width of a shape function apart. -/
def FarApart {d : ℕ} (deg : Deg) (dx : ℝ) (x y : Fin d → ℝ) : Prop := ∃ a, width deg * dx ≤ |x a - y a|

lemma N_width {deg : Deg} {u : ℝ} (h : width deg / 2 ≤ |u|) : N deg u = 0 := by
  cases deg
  · simp only [width] at h
    show N1 u = 0
    exact max_eq_left (by linarith)
  · exact N2_out (by simp only [width] at h; linarith)
  · exact N3_out (by simp only [width] at h; linarith)

lemma apart_of_far {d : ℕ} {deg : Deg} {dx : ℝ} (hdx : 0 < dx) {x y : Fin d → ℝ} (h : FarApart deg dx x y) (X : Fin d → ℝ) :
    shape deg dx X x = 0 ∨ shape deg dx X y = 0 := by
  obtain ⟨a, ha⟩ := h
  have key : ∀ z : Fin d → ℝ, width deg / 2 * dx ≤ |z a - X a| → shape deg dx X z = 0 := by
    intro z hz
    refine Finset.prod_eq_zero (Finset.mem_univ a) (N_width ?_)
    rw [abs_div, abs_of_pos hdx, le_div_iff₀ hdx]
    exact hz
  by_cases h1 : width deg / 2 * dx ≤ |x a - X a|
  · exact .inl (key x h1)
  · refine .inr (key y ?_)
    have := abs_sub_abs_le_abs_sub (x a - y a) (x a - X a)
    have e : x a - y a - (x a - X a) = -(y a - X a) := by ring
    rw [e, abs_neg] at this
    linarith

section pick
variable {α β : Type*}

lemma pick_append (o o' : List ℕ) (l : List α) : pick (o ++ o') l = pick o l ++ pick o' l := by
  simp [pick]

lemma pick_mem {o : List ℕ} {l : List α} {a : α} (h : a ∈ pick o l) : a ∈ l := by
  simp only [pick, List.mem_filterMap] at h
  obtain ⟨k, -, hk⟩ := h
  exact List.mem_of_getElem? hk

lemma pick_mapM_some {f : α → Option β} {l : List α} {r : List β} (h : l.mapM f = some r) (o : List ℕ) :
    (pick o l).mapM f = some (pick o r) := by
  have hk := mapM_getElem? h
  induction o with
  | nil => rfl
  | cons k o ih =>
    simp only [pick, List.filterMap_cons] at ih ⊢
    rw [hk k]
    cases hl : l[k]? with
    | none => simpa using ih
    | some a =>
      simp only [Option.bind_some]
      have hr := hk k
      rw [hl, Option.bind_some] at hr
      cases ha : f a with
      | none =>
        have := (mapM_none (f := f) (l := l)).mpr ⟨a, List.mem_of_getElem? hl, ha⟩
        rw [this] at h
        cases h
      | some b =>
        simp only
        rw [List.mapM_cons, ha, ih]
        rfl

end pick

section step
variable {d : ℕ} {R : Setup (d + 2)} {dt : ℝ} {grav : Fin (d + 2) → ℝ} {time : ℝ} {n : ℕ} {deg : Deg} {dx : ℝ}
  {w w' : World (d + 2)} {g g' : Axes (d + 2) ℝ} {A B : List (Particle (d + 2) ℝ)}

lemma boundaryCollision_congr {ops : PlateOps (d + 2)} {mibf : Bool} {f f' : ℕ → ℝ} {objs : List (GenObject (d + 2))} {pl : List (Plate (d + 2))}
    {l l' : ℕ} (h : f l = f' l') (X v : Fin (d + 2) → ℝ) :
    boundaryCollision ops mibf f' dt objs pl l' X v = boundaryCollision ops mibf f dt objs pl l X v := by
  have e : ∀ own, wallFriction mibf f' l' own = wallFriction mibf f l own := fun own => by
    simp only [wallFriction, h]
  have e' : wallFriction mibf f' l' = wallFriction mibf f l := funext e
  simp only [boundaryCollision, e']

lemma physStep_choose {ex : Bool} (h : physStep R w dt grav time n = some (w', ex)) :
    ∃ bg, chooseGrid R.S ⟨w.ps, w.box, w.g, n⟩ = some bg ∧ w'.g = bg.2 := by
  obtain ⟨fr, h⟩ := physStep_advance h
  simp only [advanceStep, stepOnGrid, Option.bind_eq_bind, Option.bind_eq_some_iff] at h
  obtain ⟨bg, hbg, ps, h, h'⟩ := h
  injection h' with h'
  injection h' with _ _ hg _
  exact ⟨bg, hbg, hg.symm⟩

/-- What happens to a particle of the body `A` does not depend on the particles `B`. -/
lemma particleStep_apart (hpair : Pair deg dx g g' A B) (hps : w.ps.Perm (A ++ B)) (hps' : w'.ps = A)
    (hpl : w'.plates = w.plates) {p : Particle (d + 2) ℝ} (h : p ∈ A) :
    particleStep R deg dx dt grav g' w' p = particleStep R deg dx dt grav g w p := by
  have hraw : raw R.S.P deg dx g w.ps = raw R.S.P deg dx g (A ++ B) := raw_perm hps
  have hbc : ∀ l l' X v, raw R.S.P deg dx g (A ++ B) l = raw R.S.P deg dx g' A l' →
      wallsOn R deg dx dt g' w' l' X v = wallsOn R deg dx dt g w l X v := by
    intro l l' X v hl
    simp only [wallsOn, hpl]
    refine boundaryCollision_congr ?_ X v
    rw [hraw, hps']
    simp only [p2gFinish, hl]
  have h1 : stepEuler R.S deg dx dt grav (wallsOn R deg dx dt g w) g w.ps =
      stepEuler R.S deg dx dt grav (wallsOn R deg dx dt g w) g (A ++ B) := by
    simp only [stepEuler, hraw]
  have h2 : gradVel R.S deg dx dt grav (wallsOn R deg dx dt g w) g w.ps =
      gradVel R.S deg dx dt grav (wallsOn R deg dx dt g w) g (A ++ B) := by
    simp only [gradVel, h1, hraw]
    rw [raw_perm (hps.map _)]
  simp only [particleStep]
  rw [h1, h2, hps', hpair.transfer hbc h, hpair.grad hbc h]

end step

section run
variable {d : ℕ} {R : Setup (d + 2)} {s : LoopState (d + 2) (World (d + 2))} {i e : Bool} {fuel : ℕ}

/-- Spec: the particles of the second world are those of the first with the numbers in `body`; the plates are the same. -/
def OnlyBody (body : List ℕ) (w w' : World (d + 2)) : Prop := w'.ps = pick body w.ps ∧ w'.plates = w.plates

/-- Spec: the particles with the numbers in `body` decide about the time step: they contain a fastest particle, or all
particles are so slow that the elastic time step is the smaller one. -/
def DecidesStep (C : TimeConfig (d + 2)) (body rest : List ℕ) (ps : List (Particle (d + 2) ℝ)) : Prop :=
  (∀ q ∈ pick rest ps, ∃ p ∈ pick body ps, q.v ⬝ᵥ q.v ≤ p.v ⬝ᵥ p.v) ∨
    ∀ p ∈ ps, √(p.v ⬝ᵥ p.v) * C.dtMax ≤ C.cfl * C.dx

lemma maxElement_spec' {vs : List (Fin d → ℝ)} (hne : vs ≠ []) :
    ∃ v, maxElement vs = some v ∧ v ∈ vs ∧ ∀ u ∈ vs, u ⬝ᵥ u ≤ v ⬝ᵥ v := by
  cases vs with
  | nil => exact absurd rfl hne
  | cons v vs =>
    refine ⟨_, rfl, ?_⟩
    clear hne
    induction vs generalizing v with
    | nil => simp
    | cons u vs ih =>
      rw [List.foldl_cons]
      split_ifs with h
      · obtain ⟨h1, h2⟩ := ih u
        refine ⟨List.mem_cons_of_mem _ h1, fun x hx => ?_⟩
        rcases List.mem_cons.mp hx with rfl | hx
        · exact h.le.trans (h2 u (by simp))
        · exact h2 x hx
      · obtain ⟨h1, h2⟩ := ih v
        refine ⟨?_, fun x hx => ?_⟩
        · rcases List.mem_cons.mp h1 with h1 | h1
          · rw [h1]; simp
          · simp [h1]
        · rcases List.mem_cons.mp hx with rfl | hx
          · exact h2 _ (by simp)
          · rcases List.mem_cons.mp hx with rfl | hx
            · exact (not_lt.mp h).trans (h2 v (by simp))
            · exact h2 x (by simp [hx])

lemma updateDt_body {C : TimeConfig (d + 2)} {body rest : List ℕ} {ps : List (Particle (d + 2) ℝ)} (hbody : pick body ps ≠ [])
    (hparts : (body ++ rest).Perm (List.range ps.length)) (h : DecidesStep C body rest ps) (gf g : Fin (d + 2) → ℝ)
    (frame : ℕ) (time : ℝ) :
    updateDt C gf frame time ((pick body ps).map fun p => p.v) g = updateDt C gf frame time (ps.map fun p => p.v) g := by
  have hps : ps ≠ [] := fun h0 => hbody (by
    rw [h0]; exact List.eq_nil_iff_forall_not_mem.mpr fun a ha => by simpa using pick_mem ha)
  obtain ⟨v, hv, hv1, hv2⟩ := maxElement_spec' (vs := ps.map fun p => p.v) (by simpa using hps)
  obtain ⟨u, hu, hu1, hu2⟩ := maxElement_spec' (vs := (pick body ps).map fun p => p.v) (by simpa using hbody)
  simp only [updateDt, maxSpeed, hv, hu, Option.map_some, Option.some.injEq, Prod.mk.injEq, and_true]
  obtain ⟨p, hp, rfl⟩ := List.mem_map.mp hv1
  obtain ⟨q, hq, rfl⟩ := List.mem_map.mp hu1
  rcases h with h | h
  · have : p.v ⬝ᵥ p.v = q.v ⬝ᵥ q.v := by
      refine le_antisymm ?_ (hv2 _ (List.mem_map.mpr ⟨q, pick_mem hq, rfl⟩))
      have hp' : p ∈ pick body ps ++ pick rest ps := by
        rw [← pick_append]; exact (pick_perm hparts).mem_iff.mpr hp
      rcases List.mem_append.mp hp' with h1 | h1
      · exact hu2 _ (List.mem_map.mpr ⟨p, h1, rfl⟩)
      · obtain ⟨p2, hp2, hle⟩ := h p h1
        exact hle.trans (hu2 _ (List.mem_map.mpr ⟨p2, hp2, rfl⟩))
    rw [this]
  · have key : ∀ p ∈ ps, chooseDt C frame time √(p.v ⬝ᵥ p.v) = chooseDt C frame time 0 := by
      intro p hp
      have h1 := h p hp
      have e : (if |√(p.v ⬝ᵥ p.v)| > 1 / 10 ^ 10 then min (C.cfl * C.dx / √(p.v ⬝ᵥ p.v)) C.dtMax else C.dtMax) = C.dtMax := by
        split_ifs with h2
        · refine min_eq_right ?_
          rw [abs_of_nonneg (Real.sqrt_nonneg _)] at h2
          rw [le_div_iff₀ (lt_trans (by norm_num) h2)]
          linarith
        · rfl
      have e0 : (if |(0 : ℝ)| > 1 / 10 ^ 10 then min (C.cfl * C.dx / 0) C.dtMax else C.dtMax) = C.dtMax := by
        rw [if_neg]; norm_num
      simp only [chooseDt, e, e0]
    rw [key q (pick_mem hq), key p hp]

/-- **C97** Let the particles consist of a body and a rest that stays, at every step of the run, at least the width of the
shape functions away from it in some direction, and let the body decide about the time step; let the grids of the two runs
be parts of one lattice. Then the run with the body alone gives the same files for the particles of the body: same frames,
same times, same particles with the same data; unless a particle of the body gets out of the grid when alone (C14). -/
theorem C97_separate_bodies {deg : Deg} {dx fr mass vol : ℝ} {mibf : Bool}
    (hS : R.S.P = mkTransferParams deg dx fr mibf mass vol) (hd : deg ≠ .one) (hdx : 0 < dx) (hpbc : R.S.pbc = false)
    (hfresh : s.step = 0) (hsched : ∀ k ps, (R.sched k ps).flatten.Perm ps) {body rest : List ℕ}
    (hparts : (body ++ rest).Perm (List.range s.w.ps.length)) (hne : body ≠ [])
    (hlat : ∀ a m m', IsLeast (coords R.S.ref (s.w.ps.map fun p => p.x) a) m →
      IsLeast (coords R.S.ref ((pick body s.w.ps).map fun p => p.x) a) m' → ∃ k : ℤ, m' = m + k * dx)
    (hsep : ∀ s1 dt g w, StepOf R s s1 dt g w → ∀ p ∈ pick body s1.w.ps, ∀ q ∈ pick rest s1.w.ps, FarApart deg dx p.x q.x)
    (hstep : ∀ s1 dt g w, StepOf R s s1 dt g w → DecidesStep R.C body rest s1.w.ps)
    {r : LoopState (d + 2) (World (d + 2))} (hfin : runProgram R i e fuel s = .finished r)
    (hub : runProgram R i e fuel { s with w := { s.w with ps := pick body s.w.ps } } ≠ .ub) :
    ∃ r', runProgram R i e fuel { s with w := { s.w with ps := pick body s.w.ps } } = .finished r' ∧
      r'.time = r.time ∧ r'.frame = r.frame ∧ r'.step = r.step ∧ OnlyBody body r.w r'.w ∧
      ∃ files files', r.out = s.out ++ files ∧ r'.out = s.out ++ files' ∧
        List.Forall₂ (FileRel (OnlyBody body)) files files' := by
  set s' : LoopState (d + 2) (World (d + 2)) := { s with w := { s.w with ps := pick body s.w.ps } } with hs'
  have hPdx : R.S.P.dx = dx := by rw [hS]; rfl
  have hP1 : R.S.P.oneOverDx = 1 / dx := by rw [hS]; rfl
  have hPdeg : R.S.P.deg = deg := by rw [hS]; rfl
  set rel : World (d + 2) → World (d + 2) → Prop := fun w w' => OnlyBody body w w' ∧ w.ps.length = s.w.ps.length with hrel
  have hbody : ∀ (ps : List (Particle (d + 2) ℝ)), ps.length = s.w.ps.length → pick body ps ≠ [] := by
    intro ps hl h0
    obtain ⟨k, hk⟩ := List.exists_mem_of_ne_nil _ hne
    have hk1 : k < ps.length := by
      have := hparts.mem_iff.mp (List.mem_append_left rest hk)
      rw [hl]; simpa using this
    have : ps[k] ∈ pick body ps := List.mem_filterMap.mpr ⟨k, hk, List.getElem?_eq_getElem hk1⟩
    rw [h0] at this
    simp at this
  have hne1 : s.w.ps ≠ [] := fun h0 => hbody _ rfl (by
    rw [h0]; exact List.eq_nil_iff_forall_not_mem.mpr fun a ha => by simpa using pick_mem ha)
  have hne2 : s'.w.ps ≠ [] := hbody _ rfl
  have hacc : accepted i R.m.elastic R.m.plastic e = true := by
    by_contra hacc
    simp only [runProgram, if_neg hacc] at hfin
    cases hfin
  have hrun : ∀ s : LoopState (d + 2) (World (d + 2)), runProgram R i e fuel s =
      loop R.C (physics R) s.gravity fuel (begin R s) := by
    intro s
    simp only [runProgram, if_pos hacc]
    rw [simulate_eq hacc]
    rfl
  rw [hrun] at hfin hub
  rw [hrun]
  have hbegin : LoopRel id rel s.out s.out (begin R s) (begin R s') := by
    have h0 : rel (fillMuI R.m R.S.P.useMibf s.w) (fillMuI R.m R.S.P.useMibf s'.w) := by
      simp only [hrel, OnlyBody, fillMuI, hs']
      split_ifs
      · exact ⟨⟨(pick_map _ _).symm, rfl⟩, by simp⟩
      · exact ⟨⟨(pick_map _ _).symm, rfl⟩, by simp⟩
      · exact ⟨⟨rfl, rfl⟩, rfl⟩
    simp only [begin, startState]
    split_ifs
    · exact ⟨h0, rfl, rfl, rfl, rfl, _, _, rfl, rfl, .cons .info (.cons (.particles _ _ h0) .nil)⟩
    · exact ⟨h0, rfl, rfl, rfl, rfl, [], [], by simp, by simp [hs'], .nil⟩
  have key := loop_rel (C := R.C) (ph := physics R) (ph' := physics R) (gf := s.gravity) (γ := id) (rel := rel)
    (o := s.out) (o' := s.out) (s0 := begin R s) (s0' := begin R s') ?_ ?_ fuel 0 0 _ _ r .start .start hbegin hfin hub
  · obtain ⟨r', h1, h2⟩ := key
    obtain ⟨l, l', e1, e2, e3⟩ := h2.out
    refine ⟨r', h1, h2.time, h2.frame, h2.step, h2.w.1, l, l', e1, e2, e3.imp fun a b hab => ?_⟩
    cases hab with
    | info => exact .info
    | particles n t h => exact .particles n t h.1
    | grid n t h => exact .grid n t h.1
    | timing n => exact .timing n
  · intro k k' s1 s1' dt g w ht hr' h
    obtain ⟨⟨hps, hpl⟩, hlen⟩ := h
    have := ht.2.2.1
    simp only [physics, id_eq] at this ⊢
    rw [hps, updateDt_body (hbody _ hlen) (by rw [hlen]; exact hparts) (hstep s1 dt g w ⟨k, ht⟩), this]
  · intro k k' s1 s1' dt g w w' ex ht hr' h htime hstepno hst'
    obtain ⟨⟨hps, hpl⟩, hlen⟩ := h
    have hphys : physStep R s1.w dt g s1.time s1.step = some (w, false) := ht.2.2.2
    have hphys' : physStep R s1'.w dt g s1'.time s1'.step = some (w', ex) := hst'
    have hparts1 : (body ++ rest).Perm (List.range s1.w.ps.length) := by rw [hlen]; exact hparts
    have hperm : s1.w.ps.Perm (pick body s1.w.ps ++ pick rest s1.w.ps) := by
      rw [← pick_append]; exact (pick_perm hparts1).symm
    have hgood := physStep_goodGrid hpbc (by rw [hPdx]; exact hdx) (by rw [hP1, hPdx]) hphys
    have hgood' := physStep_goodGrid hpbc (by rw [hPdx]; exact hdx) (by rw [hP1, hPdx]) hphys'
    rw [hPdx] at hgood hgood'
    obtain ⟨bg, hbg, hbg2⟩ := physStep_choose hphys
    obtain ⟨bg', hbg', hbg2'⟩ := physStep_choose hphys'
    rw [hbg2] at hgood
    rw [hbg2'] at hgood'
    obtain ⟨m0, hm0, hg0⟩ := reach_lattice hPdx hdx hpbc hfresh hne1 ht.1 hbg
    obtain ⟨m0', hm0', hg0'⟩ := reach_lattice (s := s') hPdx hdx hpbc hfresh hne2 hr' hbg'
    have hpair : Pair deg dx bg.2 bg'.2 (pick body s1.w.ps) (pick rest s1.w.ps) := by
      refine ⟨hd, hgood.perm hperm.symm, by rw [← hps]; exact hgood', fun a x hx y hy => ?_, fun p hp q hq X => ?_⟩
      · obtain ⟨k, rfl⟩ := hg0 a x hx
        obtain ⟨k', rfl⟩ := hg0' a y hy
        obtain ⟨j, hj⟩ := hlat a _ _ (hm0 a) (hm0' a)
        exact ⟨j + k' - k, by rw [hj]; push_cast; ring⟩
      · exact apart_of_far hdx (hsep s1 dt g w ⟨k, ht⟩ p hp q hq) X
    rw [physStep_good hpbc hPdeg hP1 (hsched _) hbg hgood] at hphys
    rw [physStep_good hpbc hPdeg hP1 (hsched _) hbg' hgood'] at hphys'
    obtain ⟨qs, hqs, h1⟩ := Option.map_eq_some_iff.mp hphys
    obtain ⟨qs', hqs', h1'⟩ := Option.map_eq_some_iff.mp hphys'
    have hsame : s1'.w.ps.mapM (particleStep R deg dx dt g bg'.2 s1'.w) = some (pick body qs) := by
      rw [hps, mapM_congr' (h := particleStep R deg dx dt g bg.2 s1.w) fun p hp =>
        particleStep_apart hpair hperm hps hpl hp]
      exact pick_mapM_some hqs body
    rw [hqs'] at hsame
    obtain rfl := Option.some.inj hsame
    obtain ⟨rfl, hex⟩ := Prod.mk.inj h1
    obtain ⟨rfl, hex'⟩ := Prod.mk.inj h1'
    refine ⟨?_, ⟨?_, ?_⟩, ?_⟩
    · rw [← hex', List.any_eq_false]
      rw [List.any_eq_false] at hex
      exact fun q hq => hex q (pick_mem hq)
    · exact (pick_map _ _).symm
    · show s1'.w.plates.map _ = s1.w.plates.map _
      rw [hpl, htime]
    · show (qs.map _).length = _
      rw [List.length_map, ← (mapM_forall₂ hqs).length_eq, hlen]

/-- **C97** The grids are parts of one lattice if `grid_reference_point` is set to a point below all particles. -/
theorem C97_reference_point {deg : Deg} {dx fr mass vol : ℝ} {mibf : Bool}
    (hS : R.S.P = mkTransferParams deg dx fr mibf mass vol) (hd : deg ≠ .one) (hdx : 0 < dx) (hpbc : R.S.pbc = false)
    (hfresh : s.step = 0) (hsched : ∀ k ps, (R.sched k ps).flatten.Perm ps) {body rest : List ℕ}
    (hparts : (body ++ rest).Perm (List.range s.w.ps.length)) (hne : body ≠ [])
    {ref : Fin (d + 2) → ℝ} (href : R.S.ref = some ref) (hbelow : ∀ p ∈ s.w.ps, ∀ a, ref a ≤ p.x a)
    (hsep : ∀ s1 dt g w, StepOf R s s1 dt g w → ∀ p ∈ pick body s1.w.ps, ∀ q ∈ pick rest s1.w.ps, FarApart deg dx p.x q.x)
    (hstep : ∀ s1 dt g w, StepOf R s s1 dt g w → DecidesStep R.C body rest s1.w.ps)
    {r : LoopState (d + 2) (World (d + 2))} (hfin : runProgram R i e fuel s = .finished r)
    (hub : runProgram R i e fuel { s with w := { s.w with ps := pick body s.w.ps } } ≠ .ub) :
    ∃ r', runProgram R i e fuel { s with w := { s.w with ps := pick body s.w.ps } } = .finished r' ∧
      r'.time = r.time ∧ r'.frame = r.frame ∧ r'.step = r.step ∧ OnlyBody body r.w r'.w ∧
      ∃ files files', r.out = s.out ++ files ∧ r'.out = s.out ++ files' ∧
        List.Forall₂ (FileRel (OnlyBody body)) files files' := by
  refine C97_separate_bodies hS hd hdx hpbc hfresh hsched hparts hne (fun a m m' hm hm' => ⟨0, ?_⟩) hsep hstep hfin hub
  have key : ∀ (ps : List (Particle (d + 2) ℝ)) (m : ℝ), (∀ p ∈ ps, ref a ≤ p.x a) →
      IsLeast (coords R.S.ref (ps.map fun p => p.x) a) m → m = ref a := by
    intro ps m h0 h
    refine h.unique ⟨.inr ⟨ref, href, rfl⟩, ?_⟩
    rintro y (⟨x, hx, rfl⟩ | ⟨r0, hr0, rfl⟩)
    · obtain ⟨p, hp, rfl⟩ := List.mem_map.mp hx
      exact h0 p hp
    · rw [href] at hr0
      rw [Option.some.inj hr0]
  rw [key _ m (fun p hp => hbelow p hp a) hm, key _ m' (fun p hp => hbelow p (pick_mem hp) a) hm']
  simp

end run

end Verif.Props
