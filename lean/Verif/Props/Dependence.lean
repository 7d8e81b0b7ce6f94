import Verif.Props.Textbook

set_option linter.unusedSectionVars false
set_option linter.unusedSimpArgs false
set_option linter.unusedVariables false

/-!
# C118: influences spread by a few cells per step

What happens to a particle in a step is decided by the particles within the width of a shape function (twice that with
MUSL). Hence two runs which agree in a cube agree after `k` steps in the cube made smaller by `k` times that width, apart from
the movement of the particles, whatever is different outside.
-/

namespace Verif.Props
open Verif Matrix
noncomputable section

/-! ### Specification -/

/-- The points of the cube with centre `c` and half edge `r`. -/
def InCube {d : ℕ} (c : Fin d → ℝ) (r : ℝ) (x : Fin d → ℝ) : Prop := ∀ a, |x a - c a| ≤ r

open Classical in
/-- The particles in the cube. -/
def inCube {d : ℕ} (c : Fin d → ℝ) (r : ℝ) (ps : List (Particle d ℝ)) : List (Particle d ℝ) :=
  ps.filter fun p => InCube c r p.x

/-- How far a particle sees in a step: the width of a shape function, with MUSL two widths. -/
def sight (deg : Deg) (dx : ℝ) (musl : Bool) : ℝ := if musl then 2 * width deg * dx else width deg * dx

/-- No particle moves by more than `δ` in any direction. -/
def MovesAtMost {d : ℕ} (δ : ℝ) (ps ps' : List (Particle d ℝ)) : Prop :=
  List.Forall₂ (fun p p' => ∀ a, |p'.x a - p.x a| ≤ δ) ps ps'

/-! ### One step of the method -/

section scheme
variable {d : ℕ} {S : Mpm.Scheme d} {c : Fin d → ℝ} {r : ℝ} {ps ps' : List (Particle d ℝ)}

lemma InCube.mono {x : Fin d → ℝ} {r' : ℝ} (h : InCube c r x) (hr : r ≤ r') : InCube c r' x := fun a => (h a).trans hr

lemma InCube.add {x y : Fin d → ℝ} {δ : ℝ} (h : InCube c r x) (hy : ∀ a, |y a - x a| ≤ δ) : InCube c (r + δ) y := by
  intro a
  have := abs_add_le (y a - x a) (x a - c a)
  rw [sub_add_sub_cancel] at this
  linarith [h a, hy a]

lemma shape_support (hdx : 0 < S.dx) {X x : Fin d → ℝ} (h : shape S.deg S.dx X x ≠ 0) (a : Fin d) :
    |x a - X a| ≤ width S.deg / 2 * S.dx := by
  by_contra hc
  refine h (Finset.prod_eq_zero (Finset.mem_univ a) (N_width ?_))
  rw [abs_div, abs_of_pos hdx, le_div_iff₀ hdx]
  linarith

lemma shapeGrad_support (hdx : 0 < S.dx) {X x : Fin d → ℝ} (h : shapeGrad S.deg S.dx X x ≠ 0) (a : Fin d) :
    |x a - X a| ≤ width S.deg / 2 * S.dx := by
  by_contra hc
  have hN : N S.deg ((x a - X a) / S.dx) = 0 := by
    refine N_width ?_
    rw [abs_div, abs_of_pos hdx, le_div_iff₀ hdx]
    linarith
  refine h (funext fun b => Finset.prod_eq_zero (Finset.mem_univ a) ?_)
  split_ifs
  · rw [dN_eq_zero_of_N_eq_zero hN, zero_div]
  · exact hN

/-- A node that is well inside the cube is influenced by the particles in the cube only. -/
lemma near_cube (hdx : 0 < S.dx) (h : inCube c r ps = inCube c r ps') {X : Fin d → ℝ}
    (hX : InCube c (r - width S.deg / 2 * S.dx) X) : S.near ps X = S.near ps' X := by
  classical
  have key : ∀ l : List (Particle d ℝ), S.near l X = S.near (inCube c r l) X := by
    intro l
    unfold Mpm.Scheme.near inCube
    rw [List.filter_filter]
    refine List.filter_congr fun p _ => ?_
    by_cases hp : 1 / 10 ^ 25 < shape S.deg S.dx X p.x
    · have : InCube c r p.x := by
        have h0 : shape S.deg S.dx X p.x ≠ 0 := by
          have : (0 : ℝ) < 1 / 10 ^ 25 := by positivity
          exact (this.trans hp).ne'
        have := hX.add (shape_support hdx h0)
        rwa [sub_add_cancel] at this
      simp [hp, this]
    · simp only [decide_eq_false hp, Bool.false_and]
  rw [key ps, key ps', h]

lemma before_cube (hdx : 0 < S.dx) (h : inCube c r ps = inCube c r ps') {X : Fin d → ℝ}
    (hX : InCube c (r - width S.deg / 2 * S.dx) X) : S.before ps X = S.before ps' X := by
  unfold Mpm.Scheme.before Mpm.Scheme.nodeMass Mpm.Scheme.nodeMomentum
  rw [near_cube hdx h hX]

lemma after_cube (hdx : 0 < S.dx) (h : inCube c r ps = inCube c r ps') {X : Fin d → ℝ}
    (hX : InCube c (r - width S.deg / 2 * S.dx) X) : S.after ps X = S.after ps' X := by
  unfold Mpm.Scheme.after
  rw [before_cube hdx h hX]
  unfold Mpm.Scheme.nodeFriction Mpm.Scheme.nodeMass Mpm.Scheme.nodeForce
  rw [near_cube hdx h hX]

/-- Values interpolated to a point depend on the nodes nearby. -/
lemma interp_cube (hdx : 0 < S.dx) {V V' : (Fin d → ℝ) → Fin d → ℝ} (hV : ∀ X, InCube c r X → V X = V' X) {x : Fin d → ℝ}
    (hx : InCube c (r - width S.deg / 2 * S.dx) x) :
    S.interp V x = S.interp V' x ∧ S.grad V x = S.grad V' x ∧ S.moments V x = S.moments V' x := by
  have hin : ∀ X, (∀ a, |x a - X a| ≤ width S.deg / 2 * S.dx) → V X = V' X := by
    intro X hX
    have := hx.add (y := X) fun a => by rw [abs_sub_comm]; exact hX a
    rw [sub_add_cancel] at this
    exact hV X this
  unfold Mpm.Scheme.interp Mpm.Scheme.grad Mpm.Scheme.moments Mpm.Scheme.overNodes
  refine ⟨finsum_congr fun k => ?_, finsum_congr fun k => ?_, finsum_congr fun k => ?_⟩
  · by_cases h0 : shape S.deg S.dx (S.node k) x = 0
    · simp only [h0, zero_smul]
    · simp only [hin _ (shape_support hdx h0)]
  · by_cases h0 : shapeGrad S.deg S.dx (S.node k) x = 0
    · simp only [h0, vecMulVec_zero]
    · simp only [hin _ (shapeGrad_support hdx h0)]
  · by_cases h0 : shape S.deg S.dx (S.node k) x = 0
    · simp only [h0, zero_smul]
    · simp only [hin _ (shape_support hdx h0)]

lemma velocity_cube (hdx : 0 < S.dx) (h : inCube c r ps = inCube c r ps') {p : Particle d ℝ}
    (hp : InCube c (r - width S.deg * S.dx) p.x) :
    S.newVelocity ps p = S.newVelocity ps' p ∧ S.newAffine ps p = S.newAffine ps' p ∧
      S.interp (S.after ps) p.x = S.interp (S.after ps') p.x ∧
      S.interp (fun X => S.after ps X - S.before ps X) p.x = S.interp (fun X => S.after ps' X - S.before ps' X) p.x := by
  have hp' : InCube c (r - width S.deg / 2 * S.dx - width S.deg / 2 * S.dx) p.x := hp.mono (by linarith)
  have h1 := interp_cube hdx (V := S.after ps) (V' := S.after ps') (fun X hX => after_cube hdx h hX) hp'
  have h2 := interp_cube hdx (V := fun X => S.after ps X - S.before ps X) (V' := fun X => S.after ps' X - S.before ps' X)
    (fun X hX => by simp only [after_cube hdx h hX, before_cube hdx h hX]) hp'
  unfold Mpm.Scheme.newVelocity Mpm.Scheme.newAffine
  rw [h1.1, h1.2.2, h2.1]
  exact ⟨rfl, rfl, rfl, rfl⟩

lemma pushed_cube (hdx : 0 < S.dx) (h : inCube c r ps = inCube c r ps') {r' : ℝ} (hr : r' ≤ r - width S.deg * S.dx)
    (hw : 0 ≤ width S.deg) :
    inCube c r' (S.pushed ps) = inCube c r' (S.pushed ps') := by
  classical
  have hrr : r' ≤ r := hr.trans (by nlinarith)
  have key : ∀ l l0 : List (Particle d ℝ), inCube c r' (l.map fun p => { p with v := S.newVelocity l0 p, Bmat := S.newAffine l0 p }) =
      (inCube c r' (inCube c r l)).map fun p => { p with v := S.newVelocity l0 p, Bmat := S.newAffine l0 p } := by
    intro l l0
    unfold inCube
    rw [List.filter_map, List.filter_filter]
    congr 1
    refine List.filter_congr fun p _ => ?_
    by_cases hp : InCube c r' p.x
    · simp [hp, hp.mono hrr]
    · simp [hp]
  unfold Mpm.Scheme.pushed
  rw [key ps ps, key ps' ps', h]
  refine List.map_congr_left fun p hp => ?_
  have : InCube c r' p.x := by
    have := (List.mem_filter.mp hp).2
    simpa using this
  obtain ⟨h1, h2, -, -⟩ := velocity_cube hdx h (this.mono hr)
  rw [h1, h2]

lemma deforming_cube (hdx : 0 < S.dx) (h : inCube c r ps = inCube c r ps') (hw : 0 ≤ width S.deg) {X : Fin d → ℝ}
    (hX : InCube c (r - sight S.deg S.dx S.musl + width S.deg / 2 * S.dx) X) : S.deforming ps X = S.deforming ps' X := by
  unfold Mpm.Scheme.deforming
  unfold sight at hX
  split_ifs with hm
  · rw [if_pos hm] at hX
    exact before_cube (r := r - width S.deg * S.dx) hdx (pushed_cube hdx h le_rfl hw) (hX.mono (by linarith))
  · rw [if_neg hm] at hX
    exact after_cube hdx h (hX.mono (by linarith))

/-- **C118** (one particle) -/
lemma particle_cube (hdx : 0 < S.dx) (h : inCube c r ps = inCube c r ps') (hw : 0 ≤ width S.deg) {p : Particle d ℝ}
    (hp : InCube c (r - sight S.deg S.dx S.musl) p.x) : S.particle ps p = S.particle ps' p := by
  have hs : r - sight S.deg S.dx S.musl ≤ r - width S.deg * S.dx := by
    unfold sight
    have := mul_nonneg hw hdx.le
    split_ifs <;> linarith
  obtain ⟨h1, h2, h3, h4⟩ := velocity_cube hdx h (hp.mono hs)
  have h5 : S.grad (S.deforming ps) p.x = S.grad (S.deforming ps') p.x :=
    (interp_cube (r := r - sight S.deg S.dx S.musl + width S.deg / 2 * S.dx) hdx (fun X hX => deforming_cube hdx h hw hX)
      (hp.mono (by linarith))).2.1
  unfold Mpm.Scheme.particle Mpm.Scheme.trial
  rw [h1, h2, h3, h4, h5]

lemma filter_forall₂ {α β : Type*} {P : α → Prop} {Q : β → Prop} [DecidablePred P] [DecidablePred Q] {f : α → Option β} {l : List α} {l' : List β}
    (h : List.Forall₂ (fun a b => f a = some b ∧ (Q b → P a)) l l') :
    l'.filter (fun b => decide (Q b)) = ((l.filter fun a => decide (P a)).filterMap f).filter fun b => decide (Q b) := by
  induction h with
  | nil => rfl
  | @cons a b l l' h1 _ ih =>
    by_cases hP : P a
    · rw [List.filter_cons_of_pos (p := fun a => decide (P a)) (by simpa using hP), List.filterMap_cons, h1.1]
      simp only [List.filter_cons, ih]
    · have hQ : ¬ Q b := fun hQ => hP (h1.2 hQ)
      rw [List.filter_cons_of_neg (p := fun a => decide (P a)) (by simpa using hP),
        List.filter_cons_of_neg (p := fun b => decide (Q b)) (by simpa using hQ), ih]

lemma filterMap_congr_mem {α β : Type*} {f g : α → Option β} {l : List α} (h : ∀ a ∈ l, f a = g a) :
    l.filterMap f = l.filterMap g := by
  induction l with
  | nil => rfl
  | cons a l ih =>
    rw [List.filterMap_cons, List.filterMap_cons, h a List.mem_cons_self, ih fun b hb => h b (List.mem_cons_of_mem _ hb)]

/-- The step of the method. -/
lemma step_cube (hdx : 0 < S.dx) (h : inCube c r ps = inCube c r ps') (hw : 0 ≤ width S.deg) {δ : ℝ} {qs qs' : List (Particle d ℝ)}
    {ex ex' : Bool} (hs : S.step ps = some (qs, ex)) (hs' : S.step ps' = some (qs', ex'))
    (hδ : MovesAtMost δ ps qs) (hδ' : MovesAtMost δ ps' qs') :
    inCube c (r - (sight S.deg S.dx S.musl + δ)) qs = inCube c (r - (sight S.deg S.dx S.musl + δ)) qs' := by
  classical
  set r1 := r - sight S.deg S.dx S.musl with hr1
  have h0 : 0 ≤ sight S.deg S.dx S.musl := by
    unfold sight
    have := mul_nonneg hw hdx.le
    split_ifs <;> linarith
  have key : ∀ (l l2 : List (Particle d ℝ)) (b : Bool), S.step l = some (l2, b) → MovesAtMost δ l l2 →
      inCube c (r - (sight S.deg S.dx S.musl + δ)) l2 =
        inCube c (r - (sight S.deg S.dx S.musl + δ)) ((inCube c r1 (inCube c r l)).filterMap fun p => (S.particle l p).map (·.1)) := by
    intro l l2 b hl hm
    unfold Mpm.Scheme.step at hl
    obtain ⟨res, hres, e⟩ := Option.map_eq_some_iff.mp hl
    have e1 : res.map (·.1) = l2 := congrArg Prod.fst e
    have hF : List.Forall₂ (fun p q => (S.particle l p).map (·.1) = some q) l l2 := by
      rw [← e1]
      refine List.forall₂_map_right_iff.mpr ((mapM_forall₂ hres).imp fun p q hq => ?_)
      rw [hq]; rfl
    have hrr : inCube c r1 (inCube c r l) = inCube c r1 l := by
      unfold inCube
      rw [List.filter_filter]
      refine List.filter_congr fun p _ => ?_
      by_cases hp : InCube c r1 p.x
      · simp [hp, hp.mono (show r1 ≤ r by linarith)]
      · simp [hp]
    rw [hrr]
    unfold inCube
    refine filter_forall₂ (P := fun p : Particle d ℝ => InCube c r1 p.x)
      (Q := fun q : Particle d ℝ => InCube c (r - (sight S.deg S.dx S.musl + δ)) q.x) ?_
    have hboth : ∀ {A B : Particle d ℝ → Particle d ℝ → Prop} {l l2 : List (Particle d ℝ)}, List.Forall₂ A l l2 → List.Forall₂ B l l2 →
        List.Forall₂ (fun a b => A a b ∧ B a b) l l2 := by
      intro A B l l2 h1 h2
      induction h1 with
      | nil => exact .nil
      | cons h _ ih => cases h2 with | cons h' h2 => exact .cons ⟨h, h'⟩ (ih h2)
    refine (hboth hF hm).imp fun p q hpq => ⟨hpq.1, fun hq => ?_⟩
    have := hq.add (y := p.x) fun a => by rw [abs_sub_comm]; exact hpq.2 a
    exact this.mono (by linarith)
  rw [key ps qs ex hs hδ, key ps' qs' ex' hs' hδ', h]
  congr 1
  refine filterMap_congr_mem fun p hp => ?_
  have : InCube c r1 p.x := by
    have := (List.mem_filter.mp hp).2
    simpa using this
  rw [particle_cube hdx h hw this]

end scheme

/-! ### Runs -/

lemma width_nonneg (deg : Deg) : 0 ≤ width deg := by cases deg <;> simp [width]

section run
variable {d : ℕ} {R : Setup (d + 2)} {deg : Deg} {dx fr m vol : ℝ} {mibf : Bool} {i e i' e' : Bool} {fuel fuel' : ℕ}
  {s s' : LoopState (d + 2) (World (d + 2))}

/-- Step number `k` (from zero) of a run is taken from state `s1` with the time step `dt` to the arrays `w`. -/
abbrev StepNo (R : Setup (d + 2)) (s : LoopState (d + 2) (World (d + 2))) (k : ℕ) (s1 : LoopState (d + 2) (World (d + 2))) (dt : ℝ)
    (g : Fin (d + 2) → ℝ) (w : World (d + 2)) : Prop :=
  StepTaken R.C (physics R) s.gravity (begin R s) k s1 dt g w

lemma reach_pred {k : ℕ} {s2 : LoopState (d + 2) (World (d + 2))}
    (h : Reach R.C (physics R) s.gravity (begin R s) (k + 1) s2) :
    ∃ s1 dt g w, StepNo R s k s1 dt g w ∧ s2.w = w ∧ s2.time = s1.time + dt ∧ s2.frame =
      if R.C.frameDt * (s1.frame + 1) - (s1.time + dt) < R.C.minDt * (11 / 10) then s1.frame + 1 else s1.frame := by
  cases h with
  | @next _ s1 _ hr hlt hb =>
    rcases loopBody_cases (C := R.C) (ph := physics R) (gf := s.gravity) s1 with h | ⟨_, _, _, _, _, h⟩ |
      ⟨dt, g, w, hu, hmin, -, hg, hst, h⟩
    · rw [h] at hb; cases hb
    · rw [h] at hb; cases hb
    refine ⟨s1, dt, g, w, ⟨hr, hlt, hu, hst⟩, ?_⟩
    simp only at h
    rw [h] at hb
    split_ifs at hb
    injection hb with hb
    rw [← hb, endOfFrame_w, endOfFrame_time, endOfFrame_frame]
    exact ⟨rfl, rfl, rfl⟩

/-- The times of the steps of a run increase. -/
lemma reach_earlier (hmin : 0 < R.C.minDt) {k : ℕ} : ∀ {s2 : LoopState (d + 2) (World (d + 2))},
    Reach R.C (physics R) s.gravity (begin R s) k s2 → ∀ j ≤ k,
      ∃ s1, Reach R.C (physics R) s.gravity (begin R s) j s1 ∧ s1.time + (k - j : ℕ) * R.C.minDt ≤ s2.time := by
  induction k with
  | zero => intro s2 h j hj; exact ⟨s2, by rwa [Nat.le_zero.mp hj], by simp⟩
  | succ k ih =>
    intro s2 h j hj
    rcases Nat.lt_or_ge k j with hlt | hge
    · obtain rfl : j = k + 1 := by omega
      exact ⟨s2, h, by simp⟩
    · obtain ⟨s1, dt, g, w, hst, -, ht, -⟩ := reach_pred h
      obtain ⟨s0, h0, h1⟩ := ih hst.1 j hge
      refine ⟨s0, h0, ?_⟩
      have hdt : R.C.minDt ≤ dt := (show StepOf R s s1 dt g w from ⟨k, hst⟩).dt_ge.1
      rw [ht, show k + 1 - j = (k - j) + 1 by omega]
      push_cast
      linarith

/-- No particle is so fast that the Courant condition would shorten the time step. -/
def Slow (C : TimeConfig (d + 2)) (ps : List (Particle (d + 2) ℝ)) : Prop := ∀ p ∈ ps, √(p.v ⬝ᵥ p.v) * C.dtMax ≤ C.cfl * C.dx

/-- While all particles are slow, their velocities do not influence the time step. -/
lemma slow_dt {C : TimeConfig (d + 2)} {ps : List (Particle (d + 2) ℝ)} (h : Slow C ps) {gf g g' : Fin (d + 2) → ℝ}
    {frame : ℕ} {time dt : ℝ} (hu : updateDt C gf frame time (ps.map fun p => p.v) g = some (dt, g')) :
    dt = chooseDt C frame time 0 := by
  cases ps with
  | nil => simp [updateDt, maxSpeed, maxElement] at hu
  | cons q ps =>
    obtain ⟨v, hv, hv1, -⟩ := maxElement_spec' (vs := (q :: ps).map fun p => p.v) (by simp)
    simp only [updateDt, maxSpeed, hv, Option.map_some, Option.some.injEq, Prod.mk.injEq] at hu
    obtain ⟨p, hp, rfl⟩ := List.mem_map.mp hv1
    rw [← hu.1]
    have h1 := h p hp
    have e : (if |√(p.v ⬝ᵥ p.v)| > 1 / 10 ^ 10 then min (C.cfl * C.dx / √(p.v ⬝ᵥ p.v)) C.dtMax else C.dtMax) = C.dtMax := by
      split_ifs with h2
      · refine min_eq_right ?_
        rw [abs_of_nonneg (Real.sqrt_nonneg _)] at h2
        rw [le_div_iff₀ (lt_trans (by norm_num) h2)]
        linarith
      · rfl
    have e0 : (if |(0 : ℝ)| > 1 / 10 ^ 10 then min (C.cfl * C.dx / 0) C.dtMax else C.dtMax) = C.dtMax := by
      rw [if_neg]; norm_num
    simp only [chooseDt, e, e0]

lemma slow_reach (hslow : ∀ s1 dt g w, StepOf R s s1 dt g w → Slow R.C s1.w.ps)
    (hslow' : ∀ s1 dt g w, StepOf R s' s1 dt g w → Slow R.C s1.w.ps) {k : ℕ} :
    ∀ {s1 s1' : LoopState (d + 2) (World (d + 2))}, Reach R.C (physics R) s.gravity (begin R s) k s1 →
      Reach R.C (physics R) s'.gravity (begin R s') k s1' → s1'.time = s1.time ∧ s1'.frame = s1.frame := by
  induction k with
  | zero =>
    intro s1 s1' h h'
    cases h
    cases h'
    exact ⟨by rw [begin_time, begin_time], (start_frame _).trans (start_frame _).symm⟩
  | succ k ih =>
    intro s2 s2' h h'
    obtain ⟨s1, dt, g, w, hst, -, ht, hf⟩ := reach_pred h
    obtain ⟨s1', dt', g', w', hst', -, ht', hf'⟩ := reach_pred h'
    obtain ⟨h1, h2⟩ := ih hst.1 hst'.1
    have e := slow_dt (hslow _ _ _ _ ⟨k, hst⟩) hst.2.2.1
    have e' := slow_dt (hslow' _ _ _ _ ⟨k, hst'⟩) hst'.2.2.1
    rw [h1, h2, ← e] at e'
    rw [ht, ht', hf, hf', h1, h2, e']
    exact ⟨rfl, rfl⟩

/-- **C118** While no particle is so fast that the Courant condition shortens the time step, both runs take the same steps. -/
theorem C118_slow (hslow : ∀ s1 dt g w, StepOf R s s1 dt g w → Slow R.C s1.w.ps)
    (hslow' : ∀ s1 dt g w, StepOf R s' s1 dt g w → Slow R.C s1.w.ps) :
    ∀ k s1 dt g w s1' dt' g' w', StepNo R s k s1 dt g w → StepNo R s' k s1' dt' g' w' → dt' = dt := by
  intro k s1 dt g w s1' dt' g' w' h h'
  obtain ⟨h1, h2⟩ := slow_reach hslow hslow' h.1 h'.1
  rw [slow_dt (hslow _ _ _ _ ⟨k, h⟩) h.2.2.1, slow_dt (hslow' _ _ _ _ ⟨k, h'⟩) h'.2.2.1, h1, h2]

variable (hP : R.S.P = mkTransferParams deg dx fr mibf m vol) (hd : deg ≠ .one) (hdx : 0 < dx) (hm : 0 < m)
  (hpbc : R.S.pbc = false) (hfresh : s.step = 0) (hne : s.w.ps ≠ []) (hfresh' : s'.step = 0) (hne' : s'.w.ps ≠ [])
  (hsched : ∀ k ps, (R.sched k ps).flatten.Perm ps)
  {o o' : Fin (d + 2) → ℝ} (ho : ∀ a, IsLeast (coords R.S.ref (s.w.ps.map fun p => p.x) a) (o a))
  (ho' : ∀ a, IsLeast (coords R.S.ref (s'.w.ps.map fun p => p.x) a) (o' a)) (hoo : ∀ a, ∃ k : ℤ, o' a = o a + k * dx)
  (hwalls : s'.w.plates = s.w.plates) (hgrav : s'.gravity = s.gravity)
  (hdt : ∀ k s1 dt g w s1' dt' g' w', StepNo R s k s1 dt g w → StepNo R s' k s1' dt' g' w' → dt' = dt)
  {δ : ℝ} (hmove : ∀ s1 dt g w, StepOf R s s1 dt g w → MovesAtMost δ s1.w.ps w.ps)
  (hmove' : ∀ s1 dt g w, StepOf R s' s1 dt g w → MovesAtMost δ s1.w.ps w.ps)
  {c : Fin (d + 2) → ℝ} {r : ℝ} (hsame : inCube c r s.w.ps = inCube c r s'.w.ps)
include hP hd hdx hm hpbc hfresh hne hfresh' hne' hsched ho ho' hoo hwalls hgrav hdt hmove hmove' hsame

/-- **C118** One step: particles that agree in a cube before the step agree after it in the cube that is smaller by what a
particle sees and by what the particles move. -/
theorem C118_step {k : ℕ} {s1 s1' : LoopState (d + 2) (World (d + 2))} {dt dt' : ℝ} {g g' : Fin (d + 2) → ℝ} {w w' : World (d + 2)}
    (h : StepNo R s k s1 dt g w) (h' : StepNo R s' k s1' dt' g' w') {ρ : ℝ} (hc : inCube c ρ s1.w.ps = inCube c ρ s1'.w.ps)
    (hp : s1'.w.plates = s1.w.plates) (ht : s1'.time = s1.time) :
    inCube c (ρ - (sight deg dx R.S.useMusl + δ)) w.ps = inCube c (ρ - (sight deg dx R.S.useMusl + δ)) w'.ps ∧
      w'.plates = w.plates := by
  have hst : StepOf R s s1 dt g w := ⟨k, h⟩
  have hst' : StepOf R s' s1' dt' g' w' := ⟨k, h'⟩
  obtain rfl := hdt k s1 dt g w s1' dt' g' w' h h'
  have hg : g' = g := by rw [hst.gravity_at, hst'.gravity_at, ht, hgrav]
  subst hg
  have hl := step_onLattice hP hd hdx hm hpbc hfresh hne hsched ho hst
  have hl' : OnLattice o dx w'.g := by
    have := step_onLattice hP hd hdx hm hpbc hfresh' hne' hsched ho' hst'
    intro a y hy
    obtain ⟨j, hj⟩ := this a y hy
    obtain ⟨j', hj'⟩ := hoo a
    exact ⟨j' + j, by rw [hj, hj']; push_cast; ring⟩
  obtain ⟨a1, a2, -⟩ := C105_step hP hd hdx hm hpbc (hsched _) hst.phys hl
  obtain ⟨b1, b2, -⟩ := C105_step hP hd hdx hm hpbc (hsched _) hst'.phys hl'
  rw [hp] at b1 b2
  set S := schemeOf R o dt' g' s1.w.plates with hS
  have hA : Agrees S deg dx fr mibf m vol := schemeOf_agrees hP
  refine ⟨?_, by rw [a2, b2, ht]⟩
  have := step_cube (S := S) (by rw [hA.dx]; exact hdx) hc (width_nonneg _) a1 b1 (hmove _ _ _ _ hst) (hmove' _ _ _ _ hst')
  rw [hA.deg, hA.dx] at this
  exact this

lemma reach_cube {k : ℕ} : ∀ {s1 s1' : LoopState (d + 2) (World (d + 2))}, Reach R.C (physics R) s.gravity (begin R s) k s1 →
    Reach R.C (physics R) s'.gravity (begin R s') k s1' →
    inCube c (r - k * (sight deg dx R.S.useMusl + δ)) s1.w.ps = inCube c (r - k * (sight deg dx R.S.useMusl + δ)) s1'.w.ps ∧
      s1'.w.plates = s1.w.plates ∧ s1'.time = s1.time := by
  induction k with
  | zero =>
    intro s1 s1' h h'
    cases h
    cases h'
    refine ⟨?_, by rw [begin_walls, begin_walls, hwalls], by rw [begin_time, begin_time]⟩
    rw [begin_withFriction, begin_withFriction, Nat.cast_zero, zero_mul, sub_zero]
    have key : ∀ l : List (Particle (d + 2) ℝ), inCube c r (l.map (withFriction R)) = (inCube c r l).map (withFriction R) := by
      intro l
      classical
      unfold inCube
      rw [List.filter_map]
      congr 1
      refine List.filter_congr fun p _ => ?_
      show decide (InCube c r (withFriction R p).x) = _
      have : (withFriction R p).x = p.x := by unfold withFriction; split_ifs <;> rfl
      rw [this]
    rw [key, key, hsame]
  | succ k ih =>
    intro s2 s2' h h'
    obtain ⟨s1, dt, g, w, hst, hw, ht, -⟩ := reach_pred h
    obtain ⟨s1', dt', g', w', hst', hw', ht', -⟩ := reach_pred h'
    obtain ⟨h1, h2, h3⟩ := ih hst.1 hst'.1
    obtain ⟨h4, h5⟩ := C118_step hP hd hdx hm hpbc hfresh hne hfresh' hne' hsched ho ho' hoo hwalls hgrav hdt hmove hmove' hsame
      hst hst' h1 h2 h3
    refine ⟨?_, by rw [hw, hw', h5], by rw [ht, ht', h3, hdt k _ _ _ _ _ _ _ _ hst hst']⟩
    rw [hw, hw', show r - ((k + 1 : ℕ) : ℝ) * (sight deg dx R.S.useMusl + δ) =
      r - k * (sight deg dx R.S.useMusl + δ) - (sight deg dx R.S.useMusl + δ) by push_cast; ring]
    exact h4

/-- **C118** Two runs of the same set-up whose particles agree at the beginning in a cube: in the files with the same time, the
particles in the cube that is smaller by `k (sight + δ)` agree, where `k` is the number of steps up to then (at most
`t / min_dt`). -/
theorem C118_run (hmin : 0 < R.C.minDt) {n n' : ℕ} {t : ℝ} {w w' : World (d + 2)}
    (hev : .particles n t w ∈ filesOf (runProgram R i e fuel s)) (hnew : .particles n t w ∉ s.out)
    (hev' : .particles n' t w' ∈ filesOf (runProgram R i' e' fuel' s')) (hnew' : .particles n' t w' ∉ s'.out) :
    ∃ k : ℕ, k * R.C.minDt ≤ t ∧
      inCube c (r - k * (sight deg dx R.S.useMusl + δ)) w.ps = inCube c (r - k * (sight deg dx R.S.useMusl + δ)) w'.ps := by
  have reach := @reach_cube d R deg dx fr m vol mibf s s' hP hd hdx hm hpbc hfresh hne hfresh' hne' hsched o o' ho ho' hoo hwalls
    hgrav hdt δ hmove hmove' c r hsame
  have pos : ∀ {q : LoopState (d + 2) (World (d + 2))} {k s1 dt g w}, StepNo R q k s1 dt g w → 0 ≤ s1.time ∧ 0 < s1.time + dt ∧
      (k + 1 : ℕ) * R.C.minDt ≤ s1.time + dt := by
    intro q k s1 dt g w h
    obtain ⟨s0, h0, h1⟩ := reach_earlier hmin h.1 0 (Nat.zero_le _)
    cases h0
    rw [begin_time, zero_add, Nat.sub_zero] at h1
    have hdt : R.C.minDt ≤ dt := (show StepOf R q s1 dt g w from ⟨k, h⟩).dt_ge.1
    have h2 : (0 : ℝ) ≤ k * R.C.minDt := by positivity
    push_cast
    exact ⟨by linarith, by linarith, by linarith⟩
  -- the later of two steps is later
  have later : ∀ {q q' : LoopState (d + 2) (World (d + 2))} {k k' s1 dt g w s1' dt' g' w'}, StepNo R q k s1 dt g w →
      StepNo R q' k' s1' dt' g' w' → (∀ s0 s0', Reach R.C (physics R) q.gravity (begin R q) k s0 →
        Reach R.C (physics R) q'.gravity (begin R q') k s0' → s0'.time = s0.time) →
      (∀ s0 dt0 g0 w0, StepNo R q' k s0 dt0 g0 w0 → dt0 = dt) → k < k' → s1.time + dt < s1'.time + dt' := by
    intro q q' k k' s1 dt g w s1' dt' g' w' h h' h1 h2 hlt
    obtain ⟨s2, hr, ht⟩ := reach_earlier hmin h'.1 (k + 1) hlt
    obtain ⟨s3, dt3, g3, w3, hst3, -, ht3, -⟩ := reach_pred hr
    rw [h2 _ _ _ _ hst3, h1 _ _ h.1 hst3.1] at ht3
    have hd' : R.C.minDt ≤ dt' := (show StepOf R q' s1' dt' g' w' from ⟨k', h'⟩).dt_ge.1
    have : (0 : ℝ) ≤ (k' - (k + 1) : ℕ) * R.C.minDt := by positivity
    linarith
  rcases run_particles hev hnew with ⟨-, ht, rfl⟩ | ⟨s1, dt, g, ⟨k, hst⟩, ht⟩
  · rcases run_particles hev' hnew' with ⟨-, ht', rfl⟩ | ⟨s1', dt', g', ⟨k', hst'⟩, ht'⟩
    · exact ⟨0, by rw [ht]; simp, (reach .start .start).1⟩
    · have := (pos hst').2.1
      exact absurd (ht.symm.trans ht') this.ne
  · rcases run_particles hev' hnew' with ⟨-, ht', rfl⟩ | ⟨s1', dt', g', ⟨k', hst'⟩, ht'⟩
    · have := (pos hst).2.1
      exact absurd (ht'.symm.trans ht) this.ne
    · rcases lt_trichotomy k k' with hlt | rfl | hlt
      · have := later hst hst' (fun s0 s0' h h' => (reach h h').2.2) (fun s0 dt0 g0 w0 h => hdt k _ _ _ _ _ _ _ _ hst h) hlt
        exact absurd (ht.symm.trans ht') this.ne
      · refine ⟨k + 1, by rw [ht]; exact (pos hst).2.2, ?_⟩
        obtain ⟨h1, h2, h3⟩ := reach hst.1 hst'.1
        obtain ⟨h4, -⟩ := C118_step hP hd hdx hm hpbc hfresh hne hfresh' hne' hsched ho ho' hoo hwalls hgrav hdt hmove hmove' hsame
          hst hst' h1 h2 h3
        rw [show r - ((k + 1 : ℕ) : ℝ) * (sight deg dx R.S.useMusl + δ) =
          r - k * (sight deg dx R.S.useMusl + δ) - (sight deg dx R.S.useMusl + δ) by push_cast; ring]
        exact h4
      · have := later hst' hst (fun s0 s0' h h' => ((reach h' h).2.2).symm)
          (fun s0 dt0 g0 w0 h => (hdt k' _ _ _ _ _ _ _ _ h hst').symm) hlt
        exact absurd (ht'.symm.trans ht) this.ne

end run
end
end Verif.Props
