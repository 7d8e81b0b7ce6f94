import Verif.Lemmas.Boost
import Verif.Props.Textbook

set_option linter.unusedSectionVars false
set_option linter.unusedSimpArgs false
set_option linter.unusedVariables false

/-!
# C112: Galilean invariance and the equivalence principle, for one step

Without walls, adding a velocity to all particles and a constant to gravity changes what a step does by a rigid motion:
deformation, stresses and all material state are the same.
-/

namespace Verif.Props
open Verif Matrix

/-- The particle with the velocity `V` added. -/
def boost {d : ℕ} (V : Fin d → ℝ) (p : Particle d ℝ) : Particle d ℝ := { p with v := p.v + V }

/-- All particles with the velocity `V` added. -/
def boosted {d : ℕ} (V : Fin d → ℝ) (ps : List (Particle d ℝ)) : List (Particle d ℝ) := ps.map (boost V)

/-- A particle seen by an observer whose velocity was `-V` before a step of length `dt` and who fell with `-G` during it:
another position, velocity and record of interpolated velocities. Everything else is the same. -/
noncomputable def carried {d : ℕ} (V G : Fin d → ℝ) (dt fr : ℝ) (p : Particle d ℝ) : Particle d ℝ :=
  { p with
    x := p.x + dt • (V + dt • G)
    v := p.v + (V + dt • G)
    pic := p.pic + (V + dt • G)
    flip := if -1 ≤ fr then p.flip + dt • G else p.flip }

namespace Galilei

@[simp] lemma boost_x {d : ℕ} (V : Fin d → ℝ) (p : Particle d ℝ) : (boost V p).x = p.x := rfl

lemma mapM_map_result {α β γ : Type*} (f : α → Option β) (k : β → γ) (L : List α) :
    L.mapM (fun p => (f p).map k) = (L.mapM f).map (List.map k) := by
  induction L with
  | nil => rfl
  | cons p L ih =>
    rw [List.mapM_cons, List.mapM_cons, ih]
    cases f p with
    | none => rfl
    | some q => cases L.mapM f <;> rfl

section scheme
variable {d : ℕ} {deg : Deg} {dx fr m vol : ℝ} {mibf : Bool} {g : Axes d ℝ} {ps : List (Particle d ℝ)}
  {S S' : Mpm.Scheme d} {V G : Fin d → ℝ}

/-- The same method with another gravity. -/
def withGravity (S : Mpm.Scheme d) (G : Fin d → ℝ) : Mpm.Scheme d := { S with gravity := S.gravity + G }

lemma affine_boost (p : Particle d ℝ) (X : Fin d → ℝ) :
    S.affine (boost V p) X = S.affine p X + V := by
  unfold Mpm.Scheme.affine
  split_ifs
  · show p.v + V + _ = p.v + _ + V
    abel
  · rfl

lemma nodeMass_boost (X : Fin d → ℝ) : S.nodeMass (boosted V ps) X = S.nodeMass ps X :=
  nodeMass_map S (f := boost V) (fun _ _ => rfl) X

lemma nodeMomentum_boost (X : Fin d → ℝ) :
    S.nodeMomentum (boosted V ps) X = S.nodeMomentum ps X + S.nodeMass ps X • V := by
  unfold Mpm.Scheme.nodeMomentum Mpm.Scheme.nodeMass boosted
  rw [near_map S (f := boost V) (fun _ _ => rfl), List.map_map]
  induction S.near ps X with
  | nil => simp
  | cons p L ih =>
    simp only [List.map_cons, List.sum_cons, Function.comp] at ih ⊢
    rw [ih, affine_boost, boost_x, smul_add, add_smul]
    abel

lemma nodeForce_boost (X : Fin d → ℝ) : S.nodeForce (boosted V ps) X = S.nodeForce ps X := by
  unfold Mpm.Scheme.nodeForce boosted
  rw [near_map S (f := boost V) (fun _ _ => rfl), List.map_map]
  rfl

lemma nodeFriction_boost (X : Fin d → ℝ) : S.nodeFriction (boosted V ps) X = S.nodeFriction ps X := by
  unfold Mpm.Scheme.nodeFriction
  rw [nodeMass_boost]
  unfold boosted
  rw [near_map S (f := boost V) (fun _ _ => rfl), List.map_map]
  rfl

lemma before_boost {X : Fin d → ℝ} (h : 0 < S.nodeMass ps X) :
    S.before (boosted V ps) X = S.before ps X + V := by
  unfold Mpm.Scheme.before
  rw [nodeMass_boost, if_pos h, if_pos h, nodeMomentum_boost, smul_add, smul_smul,
    one_div_mul_cancel h.ne', one_smul]

lemma after_boost (hw : S.wall = fun _ _ v => v) {X : Fin d → ℝ} (h : 0 < S.nodeMass ps X) :
    (withGravity S G).after (boosted V ps) X = S.after ps X + (V + S.dt • G) := by
  have e1 : (withGravity S G).nodeMass (boosted V ps) X = S.nodeMass ps X := nodeMass_boost X
  have e2 : (withGravity S G).before (boosted V ps) X = S.before ps X + V := before_boost (S := withGravity S G) h
  have e3 : (withGravity S G).nodeForce (boosted V ps) X = S.nodeForce ps X := nodeForce_boost X
  have hw' : (withGravity S G).wall = fun _ _ v => v := hw
  unfold Mpm.Scheme.after
  rw [e1, if_pos h, if_pos h, hw', hw, e2, e3]
  show S.before ps X + V + S.dt • ((1 / S.nodeMass ps X) • S.nodeForce ps X + (S.gravity + G)) = _
  simp only [smul_add]
  abel

/-- Where things happen: the particles are on a grid of the lattice and no weight is tiny. -/
structure Place (S : Mpm.Scheme d) (deg : Deg) (dx : ℝ) (g : Axes d ℝ) (ps : List (Particle d ℝ)) : Prop where
  degEq : S.deg = deg
  dxEq : S.dx = dx
  notOne : deg ≠ .one
  dx_pos : 0 < dx
  mass : 0 < S.mass
  good : GoodGrid dx g ps
  lattice : OnLattice S.origin dx g
  noTiny : NoTinyWeights deg dx g ps

variable (h : Place S deg dx g ps)
include h

/-- A node with a weight has mass. -/
lemma mass_pos {p : Particle d ℝ} (hp : p ∈ ps) {c : Fin d → Fin 4}
    (hc : shape deg dx ((stencilOf deg dx g p.x).nodePos c) p.x ≠ 0) :
    0 < S.nodeMass ps ((stencilOf deg dx g p.x).nodePos c) := by
  have hg := h.good.good (deg := deg) hp
  set X := (stencilOf deg dx g p.x).nodePos c with hX
  have hcut : 1 / 10 ^ 25 < shape deg dx X p.x := by
    have := h.noTiny p hp _ (hg.ok.node_lt c)
    rw [← hg.pos c] at this
    exact this.resolve_left hc
  have hmem : p ∈ S.near ps X := by
    unfold Mpm.Scheme.near
    refine List.mem_filter.mpr ⟨hp, ?_⟩
    rw [h.degEq, h.dxEq]
    simpa using hcut
  unfold Mpm.Scheme.nodeMass
  have hnn : ∀ q ∈ S.near ps X, 0 < S.mass * shape S.deg S.dx X q.x := by
    intro q hq
    unfold Mpm.Scheme.near at hq
    have := (List.mem_filter.mp hq).2
    simp only [decide_eq_true_eq] at this
    exact mul_pos h.mass (lt_trans (by positivity) this)
  generalize S.near ps X = L at hmem hnn
  induction L with
  | nil => simp at hmem
  | cons q L ih =>
    rw [List.map_cons, List.sum_cons]
    have h1 := hnn q (by simp)
    have h2 : 0 ≤ (L.map fun p => S.mass * shape S.deg S.dx X p.x).sum := by
      refine List.sum_nonneg fun y hy => ?_
      obtain ⟨r, hr, rfl⟩ := List.mem_map.mp hy
      exact (hnn r (by simp [hr])).le
    linarith

variable {U U' : (Fin d → ℝ) → Fin d → ℝ} {W : Fin d → ℝ}

lemma interp_boost {p : Particle d ℝ} (hp : p ∈ ps) (hU : ∀ X, 0 < S.nodeMass ps X → U' X = U X + W) :
    S.interp U' p.x = S.interp U p.x + W := by
  have hg := h.good.good (deg := deg) hp
  have e : ∀ U : (Fin d → ℝ) → Fin d → ℝ, S.interp U p.x =
      ∑ c, (stencilOf deg dx g p.x).weight c • U ((stencilOf deg dx g p.x).nodePos c) := by
    intro U
    rw [Mpm.Scheme.interp, overNodes_eq S h.dxEq h.dx_pos h.good.uniform h.lattice hg _ fun X a hX => by
      rw [h.dxEq, h.degEq, shape_far hX, zero_smul]]
    exact Finset.sum_congr rfl fun c _ => by rw [hg.weight, h.dxEq, h.degEq]
  rw [e, e]
  conv_rhs => rw [← one_smul ℝ W, ← hg.ok.sum_weight, Finset.sum_smul, ← Finset.sum_add_distrib]
  refine Finset.sum_congr rfl fun c _ => ?_
  by_cases hc : (stencilOf deg dx g p.x).weight c = 0
  · rw [hc]; simp
  · rw [hU _ (mass_pos h hp (by rw [← hg.weight]; exact hc)), smul_add]

lemma moments_boost {p : Particle d ℝ} (hp : p ∈ ps) (hU : ∀ X, 0 < S.nodeMass ps X → U' X = U X + W) :
    S.moments U' p.x = S.moments U p.x := by
  have hg := h.good.good (deg := deg) hp
  have e : ∀ U : (Fin d → ℝ) → Fin d → ℝ, S.moments U p.x =
      ∑ c, (stencilOf deg dx g p.x).weight c • vecMulVec (U ((stencilOf deg dx g p.x).nodePos c))
        ((stencilOf deg dx g p.x).nodePos c - p.x) := by
    intro U
    rw [Mpm.Scheme.moments, overNodes_eq S h.dxEq h.dx_pos h.good.uniform h.lattice hg _ fun X a hX => by
      rw [h.dxEq, h.degEq, shape_far hX, zero_smul]]
    exact Finset.sum_congr rfl fun c _ => by rw [hg.weight, h.dxEq, h.degEq]
  have h0 : ∑ c, (stencilOf deg dx g p.x).weight c • vecMulVec W ((stencilOf deg dx g p.x).nodePos c - p.x) = 0 := by
    ext a b
    rw [Matrix.sum_apply]
    simp only [Matrix.smul_apply, vecMulVec_apply, smul_eq_mul, Pi.sub_apply, Matrix.zero_apply]
    have := hg.ok.sum_weight_pos b
    calc ∑ c, (stencilOf deg dx g p.x).weight c * (W a * ((stencilOf deg dx g p.x).nodePos c b - p.x b))
        = W a * ∑ c, (stencilOf deg dx g p.x).weight c * ((stencilOf deg dx g p.x).nodePos c b - p.x b) := by
          rw [Finset.mul_sum]; exact Finset.sum_congr rfl fun c _ => by ring
      _ = 0 := by rw [this, mul_zero]
  rw [e, e, ← add_zero (∑ c, (stencilOf deg dx g p.x).weight c • vecMulVec (U _) _), ← h0, ← Finset.sum_add_distrib]
  refine Finset.sum_congr rfl fun c _ => ?_
  by_cases hc : (stencilOf deg dx g p.x).weight c = 0
  · rw [hc]; simp
  · rw [hU _ (mass_pos h hp (by rw [← hg.weight]; exact hc)), add_vecMulVec, smul_add]

lemma grad_boost {p : Particle d ℝ} (hp : p ∈ ps) (hU : ∀ X, 0 < S.nodeMass ps X → U' X = U X + W) :
    S.grad U' p.x = S.grad U p.x := by
  have hg := h.good.good (deg := deg) hp
  obtain ⟨D, hD⟩ := hg.gradOK h.notOne
  have e : ∀ U : (Fin d → ℝ) → Fin d → ℝ, S.grad U p.x =
      ∑ c, vecMulVec (U ((stencilOf deg dx g p.x).nodePos c)) ((stencilOf deg dx g p.x).weightGrad c) := by
    intro U
    rw [Mpm.Scheme.grad, overNodes_eq S h.dxEq h.dx_pos h.good.uniform h.lattice hg _ fun X a hX => by
      rw [h.dxEq, h.degEq, shapeGrad_far hX, vecMulVec_zero]]
    exact Finset.sum_congr rfl fun c _ => by rw [hg.wgrad, h.dxEq, h.degEq]
  have h0 : ∑ c, vecMulVec W ((stencilOf deg dx g p.x).weightGrad c) = 0 := by
    ext a b
    rw [Matrix.sum_apply]
    simp only [vecMulVec_apply, Matrix.zero_apply]
    rw [← Finset.mul_sum, hg.ok.sum_grad hD b, mul_zero]
  rw [e, e, ← add_zero (∑ c, vecMulVec (U _) _), ← h0, ← Finset.sum_add_distrib]
  refine Finset.sum_congr rfl fun c _ => ?_
  by_cases hc : (stencilOf deg dx g p.x).weight c = 0
  · rw [hg.ok.grad_zero hD hc]; simp
  · rw [hU _ (mass_pos h hp (by rw [← hg.weight]; exact hc)), add_vecMulVec]

variable (hw : S.wall = fun _ _ v => v)
include hw

lemma newVelocity_boost {p : Particle d ℝ} (hp : p ∈ ps) :
    (withGravity S G).newVelocity (boosted V ps) (boost V p) = S.newVelocity ps p + (V + S.dt • G) := by
  have e1 : (withGravity S G).interp ((withGravity S G).after (boosted V ps)) p.x =
      S.interp (S.after ps) p.x + (V + S.dt • G) :=
    interp_boost h hp fun X hX => after_boost hw hX
  have e2 : (withGravity S G).interp (fun X => (withGravity S G).after (boosted V ps) X -
      (withGravity S G).before (boosted V ps) X) p.x =
      S.interp (fun X => S.after ps X - S.before ps X) p.x + S.dt • G :=
    interp_boost (U' := fun X => (withGravity S G).after (boosted V ps) X - (withGravity S G).before (boosted V ps) X)
      (U := fun X => S.after ps X - S.before ps X) (W := S.dt • G) h hp fun X hX => by
      show (withGravity S G).after (boosted V ps) X - (withGravity S G).before (boosted V ps) X = S.after ps X - S.before ps X + _
      rw [after_boost hw hX, show (withGravity S G).before (boosted V ps) X = S.before ps X + V from
        before_boost (S := withGravity S G) hX]
      abel
  unfold Mpm.Scheme.newVelocity
  simp only [boost_x, e1, e2]
  show (if S.ratio < -1 then _ else |S.ratio| • (p.v + V + _) + (1 - |S.ratio|) • _) = _
  split_ifs
  · rfl
  · ext a
    simp only [Pi.add_apply, Pi.smul_apply, smul_eq_mul]
    ring

lemma newAffine_boost {p : Particle d ℝ} (hp : p ∈ ps) :
    (withGravity S G).newAffine (boosted V ps) (boost V p) = S.newAffine ps p := by
  have e : (withGravity S G).moments ((withGravity S G).after (boosted V ps)) p.x = S.moments (S.after ps) p.x :=
    moments_boost h hp fun X hX => after_boost hw hX
  unfold Mpm.Scheme.newAffine
  simp only [boost_x, e]
  rfl

lemma pushed_boost : (withGravity S G).pushed (boosted V ps) = boosted (V + S.dt • G) (S.pushed ps) := by
  unfold Mpm.Scheme.pushed boosted
  rw [List.map_map, List.map_map]
  refine List.map_congr_left fun p hp => ?_
  have e1 := newVelocity_boost (V := V) (G := G) h hw hp
  have e2 := newAffine_boost (V := V) (G := G) h hw hp
  unfold boosted at e1 e2
  simp only [Function.comp, e1, e2]
  rfl

lemma deforming_boost {X : Fin d → ℝ} (hX : 0 < S.nodeMass ps X) :
    (withGravity S G).deforming (boosted V ps) X = S.deforming ps X + (V + S.dt • G) := by
  unfold Mpm.Scheme.deforming
  show (if S.musl = true then _ else _) = _
  split_ifs
  · rw [pushed_boost h hw]
    refine before_boost (S := withGravity S G) (ps := S.pushed ps) ?_
    have : (withGravity S G).nodeMass (S.pushed ps) X = S.nodeMass ps X :=
      nodeMass_map S (f := fun p => { p with v := S.newVelocity ps p, Bmat := S.newAffine ps p }) (fun _ _ => rfl) X
    rw [this]; exact hX
  · exact after_boost hw hX

lemma particle_boost (hlaw : ∀ c q, S.law (nudge c q) = (S.law q).map fun r => (nudge c r.1, r.2))
    (hplace : S.place = id) {p : Particle d ℝ} (hp : p ∈ ps) :
    (withGravity S G).particle (boosted V ps) (boost V p) =
      (S.particle ps p).map fun r => (carried V G S.dt S.ratio r.1, r.2) := by
  have e1 : (withGravity S G).interp ((withGravity S G).after (boosted V ps)) p.x =
      S.interp (S.after ps) p.x + (V + S.dt • G) :=
    interp_boost h hp fun X hX => after_boost hw hX
  have e2 : (withGravity S G).interp (fun X => (withGravity S G).after (boosted V ps) X -
      (withGravity S G).before (boosted V ps) X) p.x =
      S.interp (fun X => S.after ps X - S.before ps X) p.x + S.dt • G :=
    interp_boost (U' := fun X => (withGravity S G).after (boosted V ps) X - (withGravity S G).before (boosted V ps) X)
      (U := fun X => S.after ps X - S.before ps X) (W := S.dt • G) h hp fun X hX => by
      show (withGravity S G).after (boosted V ps) X - (withGravity S G).before (boosted V ps) X = S.after ps X - S.before ps X + _
      rw [after_boost hw hX, show (withGravity S G).before (boosted V ps) X = S.before ps X + V from
        before_boost (S := withGravity S G) hX]
      abel
  have e3 : (withGravity S G).grad ((withGravity S G).deforming (boosted V ps)) p.x = S.grad (S.deforming ps) p.x :=
    grad_boost h hp fun X hX => deforming_boost h hw hX
  have e4 := newVelocity_boost (V := V) (G := G) h hw hp
  have e5 := newAffine_boost (V := V) (G := G) h hw hp
  have et : (withGravity S G).trial (boosted V ps) (boost V p) =
      nudge ⟨if S.musl then V + S.dt • G else V, V + S.dt • G, if -1 ≤ S.ratio then S.dt • G else 0⟩ (S.trial ps p) := by
    unfold Mpm.Scheme.trial nudge
    simp only [boost_x, e1, e2, e3, e4, e5]
    show ({ p with
      F := (1 + S.dt • _) * p.F
      v := if S.musl = true then _ else _
      deltaGamma := if S.musl = true then 0 else _
      Bmat := _
      pic := _
      flip := if -1 ≤ S.ratio then _ else 0 } : Particle d ℝ) = _
    by_cases hu : S.musl = true <;> by_cases hr : -1 ≤ S.ratio <;> simp only [hu, hr, if_true, if_false, add_zero] <;> rfl
  unfold Mpm.Scheme.particle
  rw [et]
  show (S.law _).map _ = _
  rw [hlaw, Option.map_map, Option.map_map]
  congr 1
  funext r
  simp only [Function.comp, e4]
  have e1' : (withGravity S G).interp ((withGravity S G).after (boosted V ps)) (boost V p).x =
      S.interp (S.after ps) p.x + (V + S.dt • G) := e1
  have hplace' : (withGravity S G).place = id := hplace
  have hdt : (withGravity S G).dt = S.dt := rfl
  simp only [hplace, hplace', id_eq, hdt, nudge, carried, boost_x, e1]
  by_cases hr : -1 ≤ S.ratio
  · simp only [hr, if_true, smul_add, add_assoc]
  · simp only [hr, if_false, smul_add, add_assoc, add_zero]

lemma step_boost (hlaw : ∀ c q, S.law (nudge c q) = (S.law q).map fun r => (nudge c r.1, r.2))
    (hplace : S.place = id) :
    (withGravity S G).step (boosted V ps) =
      (S.step ps).map fun r => (r.1.map (carried V G S.dt S.ratio), r.2) := by
  unfold Mpm.Scheme.step
  have : (boosted V ps).mapM ((withGravity S G).particle (boosted V ps)) =
      (ps.mapM (S.particle ps)).map fun rs => rs.map fun r => (carried V G S.dt S.ratio r.1, r.2) := by
    unfold boosted
    rw [List.mapM_map]
    have e := mapM_congr' (l := ps) (f := (withGravity S G).particle (boosted V ps) ∘ boost V)
      (h := fun p => (S.particle ps p).map fun r : Particle d ℝ × Bool => (carried V G S.dt S.ratio r.1, r.2))
      fun p hp => particle_boost h hw hlaw hplace hp
    unfold boosted at e
    rw [e]
    exact mapM_map_result _ _ _
  rw [this, Option.map_map, Option.map_map]
  congr 1
  funext rs
  simp only [Function.comp, List.map_map, List.any_map]
  rfl

end scheme

end Galilei
open Galilei

section step
variable {d : ℕ} {R : Setup (d + 2)} {deg : Deg} {dx fr m vol dt time : ℝ} {mibf : Bool}
  {grav o V G : Fin (d + 2) → ℝ} {w w' : World (d + 2)} {n : ℕ} {ex : Bool}

/-- **C112** One step without walls. If all particles are faster by `V` and gravity is stronger by `G`, the step gives the
same particles, carried along by the common motion: they end `dt (V + dt G)` further on and are faster by `V + dt G`; their
deformation gradients, affine matrices, stresses, plastic strains and all other variables are the same, and so is the
decision to end the run. The grid and its masses and friction coefficients are the same; where a node has mass, its velocity
differs by `V + dt G`. For every `flip_ratio`, with and without MUSL, for every material. -/
theorem C112_step (hP : R.S.P = mkTransferParams deg dx fr mibf m vol) (hd : deg ≠ .one) (hdx : 0 < dx) (hm : 0 < m)
    (hpbc : R.S.pbc = false) (hpos : R.S.changePos = false) (hobjs : R.objs = []) (hplates : w.plates = [])
    (hsched : ∀ ps, (R.sched n ps).flatten.Perm ps)
    (h : physStep R w dt grav time n = some (w', ex)) (ho : OnLattice o dx w'.g)
    (htiny : NoTinyWeights deg dx w'.g w.ps) :
    ∃ w'', physStep R { w with ps := boosted V w.ps } dt (grav + G) time n = some (w'', ex) ∧
      w''.ps = w'.ps.map (carried V G dt fr) ∧ w''.g = w'.g ∧ w''.box = w'.box ∧ w''.plates = w'.plates ∧
      ∀ i, IsNode w'.g i →
        w''.mass (flatIndex w'.g.size i) = w'.mass (flatIndex w'.g.size i) ∧
        w''.friction (flatIndex w'.g.size i) = w'.friction (flatIndex w'.g.size i) ∧
        (0 < w'.mass (flatIndex w'.g.size i) →
          w''.vel (flatIndex w'.g.size i) = w'.vel (flatIndex w'.g.size i) + (V + dt • G)) := by
  have hPdx : R.S.P.dx = dx := by rw [hP]; rfl
  have hgood := physStep_goodGrid hpbc (by rw [hPdx]; exact hdx) (by rw [hP]; rfl) h
  rw [hPdx] at hgood
  obtain ⟨bg, hbg, hwg⟩ := physStep_choose h
  set S := schemeOf R o dt grav w.plates with hS
  have hA : Agrees S deg dx fr mibf m vol := schemeOf_agrees hP
  have hw : S.wall = fun _ _ v => v := by
    funext μ X v
    show boundaryCollision R.ops _ _ dt R.objs w.plates 0 X v = v
    rw [hobjs, hplates]
    rfl
  have hlaw : ∀ c q, S.law (nudge c q) = (S.law q).map fun r => (nudge c r.1, r.2) := fun c q =>
    plasticUpdate_nudge R c dt q
  have hplace : S.place = id := by
    show (if R.S.changePos = true then reinsert else id) = id
    rw [hpos]; rfl
  have hPl : Place S deg dx w'.g w.ps := ⟨hA.deg, hA.dx, hd, hdx, by rw [hA.mass]; exact hm, hgood, ho, htiny⟩
  have hS' : schemeOf R o dt (grav + G) w.plates = withGravity S G := rfl
  have h1 := C105_step hP hd hdx hm hpbc hsched h ho
  simp only [← hS] at h1
  have hbg' : chooseGrid R.S ⟨boosted V w.ps, w.box, w.g, n⟩ = some bg := by
    rw [← hbg]
    have hx : (boosted V w.ps).map (fun p => p.x) = w.ps.map fun p => p.x := by
      unfold boosted
      rw [List.map_map]
      rfl
    unfold chooseGrid
    simp only [hx]
  have hgood' : GoodGrid dx bg.2 (boosted V w.ps) := by
    rw [← hwg]
    exact hgood.map fun _ _ => rfl
  have h2 := step_scheme (w := { w with ps := boosted V w.ps }) (dt := dt) (grav := grav + G) (time := time) hP hd hdx hm
    hpbc hsched hbg' hgood' (o := o) (by rw [← hwg]; exact ho)
  have h2' : (schemeOf R o dt (grav + G) w.plates).step (boosted V w.ps) =
      some (w'.ps.map (carried V G dt fr), ex) := by
    rw [hS', step_boost hPl hw hlaw hplace, h1.1, Option.map_some, hA.ratio]
    rfl
  change _ = (schemeOf R o dt (grav + G) w.plates).step (boosted V w.ps) at h2
  rw [h2'] at h2
  obtain ⟨⟨w'', ex'⟩, h3, h4⟩ := Option.map_eq_some_iff.mp h2
  injection h4 with h4 h5
  simp only at h4 h5
  subst h5
  obtain ⟨bg'', hbg'', hwg''⟩ := physStep_choose h3
  obtain rfl := Option.some.inj (hbg'.symm.trans hbg'')
  have hgg : w''.g = w'.g := by rw [hwg'', hwg]
  have h6 := C105_step hP hd hdx hm hpbc hsched h3 (o := o) (by rw [hgg]; exact ho)
  simp only [hS'] at h6
  rw [hgg] at h6
  refine ⟨w'', h3, h4, hgg, ?_, ?_, fun i hi => ?_⟩
  · have b1 := h
    rw [physStep_good (deg := deg) (dx := dx) hpbc (by rw [hP]; rfl) (by rw [hP]; rfl) hsched hbg (by rw [← hwg]; exact hgood)] at b1
    have b2 := h3
    rw [physStep_good (w := { w with ps := boosted V w.ps }) (deg := deg) (dx := dx) hpbc (by rw [hP]; rfl) (by rw [hP]; rfl)
      hsched hbg' hgood'] at b2
    obtain ⟨_, -, c1⟩ := Option.map_eq_some_iff.mp b1
    obtain ⟨_, -, c2⟩ := Option.map_eq_some_iff.mp b2
    injection c1 with c1 _
    injection c2 with c2 _
    rw [← c1, ← c2]
  · rw [h6.2.1, h1.2.1]
  · obtain ⟨-, a1, a2, a3⟩ := h1.2.2.1 i hi
    obtain ⟨-, b1, b2, b3⟩ := h6.2.2.1 i hi
    rw [a1, a2, a3, b1, b2, b3]
    exact ⟨nodeMass_boost _, nodeFriction_boost _, fun h0 => deforming_boost hPl hw h0⟩

end step

/-- **C112** With a moving plate this fails: the program compares the position a node would reach with the position the
plate has at the beginning of the step. A node approaching a plate at rest is stopped; seen by an observer moving with the
node it is at rest and a plate approaches it, and the program does not see the contact. (A bottom plate at height 0; a node
at height 1/2 and a step in which they meet.) -/
theorem C112_plate_false : ∃ (p q : Plate 2) (X v V : Fin 2 → ℝ) (dt : ℝ),
    q = { p with vel := p.vel + V, velOrig := p.velOrig + V } ∧ p.vel = 0 ∧ p.velOrig = 0 ∧
    boundaryCollision2 false (fun _ => 0) dt [] [p] 0 X v = ![0, 0] ∧
    boundaryCollision2 false (fun _ => 0) dt [] [q] 0 X (v + V) = ![0, 0] ∧
    V = ![0, 1] := by
  refine ⟨⟨0, .bottom, .slipFree, 0, -10, 10, 0, 0, 1, 0⟩, _, ![0, 1 / 2], ![0, -1], ![0, 1], 1, rfl, rfl, rfl, ?_, ?_, rfl⟩
  · simp [boundaryCollision2, collidePlates, collideObjects, Plate.inside2, plateRel2, wallFriction, slide2]
    norm_num
  · simp [boundaryCollision2, collidePlates, collideObjects, Plate.inside2, plateRel2, wallFriction, slide2]

/-! ### Example -/

namespace RunEx

/-- The step of a pair of particles that falls under gravity: the same step, seen by an observer who moves with the
velocity `(3, 1)` and falls freely with the acceleration 10 downwards (so that gravity disappears). -/
example (musl : Bool) : ∃ s1 dt w w'', StepOf (setup musl 1 .vm) (start pair ![0, -10]) s1 dt ![0, -10] w ∧
    physStep (setup musl 1 .vm) { s1.w with ps := boosted ![3, 1] s1.w.ps } dt 0 s1.time s1.step = some (w'', false) ∧
    w''.ps = w.ps.map (carried ![3, 1] ![0, 10] dt (-19 / 20)) := by
  obtain ⟨t, w, hev⟩ := grid_file musl (ps := pair) (by simp [pair]) (fun p hp => (pair_rest p hp).1) ![0, -10] []
  obtain ⟨s1, dt, g, hst, -⟩ := run_grid hev (by simp [start])
  have hb : s1 = begin (setup musl 1 .vm) (start pair ![0, -10]) := by
    obtain ⟨k, hr, -⟩ := hst
    have hk := only_begin musl (by simp [pair]) (fun p hp => (pair_rest p hp).1) ![0, -10] k s1 hr
    subst hk
    cases hr
    rfl
  have hg : g = ![0, -10] := by
    rw [hst.dt_ge.2, hb, begin_gravity]
    simp [rampGravity, setup, cfg, start]
  have hpl : s1.w.plates = [] := by rw [hb, begin_w]; simp [fillMuI, setup, start, mkTransferParams]
  subst hg
  obtain ⟨m0, -, ho⟩ := run_lattice (R := setup musl 1 .vm) (dx := 1) rfl one_pos rfl rfl (by simp [start, pair]) hst
  obtain ⟨w'', h1, h2, -⟩ := C112_step (R := setup musl 1 .vm) (deg := .two) (dx := 1) (fr := -19 / 20) (m := 3) (vol := 1)
    (mibf := false) (V := ![3, 1]) (G := ![0, 10]) (o := m0) rfl (by simp) one_pos (by norm_num) rfl rfl rfl
    hpl (fun _ => by simp [setup]) hst.phys ho (pair_step musl hst)
  have e : (![0, -10] : Fin 2 → ℝ) + ![0, 10] = 0 := by ext a; fin_cases a <;> simp
  rw [e] at h1
  exact ⟨s1, dt, w, w'', hst, h1, h2⟩

end RunEx

end Verif.Props
