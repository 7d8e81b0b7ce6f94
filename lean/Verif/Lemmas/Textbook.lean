import Verif.Spec.Mpm
import Verif.Lemmas.Local
import Verif.Lemmas.Lattice
import Verif.Lemmas.Run

set_option linter.unusedSectionVars false
set_option linter.unusedSimpArgs false
set_option linter.unusedVariables false

/-!
# The transfers of the program are sums over all nodes of an infinite lattice
-/

namespace Verif
open Matrix Props

section sums
variable {d : ℕ} {deg : Deg} {dx : ℝ} {g : Axes d ℝ}

/-- All nodes of the grid belong to the lattice through `o`. -/
def OnLattice (o : Fin d → ℝ) (dx : ℝ) (g : Axes d ℝ) : Prop := ∀ a, ∀ y ∈ g a, ∃ k : ℤ, y = o a + k * dx

/-- The nodes of the lattice close to a particle are those of its stencil. -/
lemma GoodAt.near {x o : Fin d → ℝ} {s : Stencil d ℝ} (hdx : 0 < dx) (hu : ∀ a, UniformAxis dx (g a))
    (ho : OnLattice o dx g) (h : GoodAt deg dx g x s) (a : Fin d) :
    ∃ b : ℤ, (∀ i : Fin 4, s.xi a i = o a + ((b + (i : ℕ) : ℤ) : ℝ) * dx) ∧
      ∀ k : ℤ, |(x a - (o a + k * dx)) / dx| < 2 → ∃ i : Fin 4, k = b + (i : ℕ) := by
  obtain ⟨x0, hx0⟩ := hu a
  obtain ⟨hk0, -⟩ := h.xi a 0
  have l0 : 0 < (g a).length := by omega
  have f : (g a).head? = some x0 := by
    rw [List.head?_eq_getElem?, List.getElem?_eq_getElem l0, UniformAxis.getElem hx0 l0]; simp
  obtain ⟨k0, hk0'⟩ := ho a x0 (List.mem_of_head? f)
  have b := h.base a
  simp only [baseInt, f, Option.map_some, Option.some.injEq] at b
  refine ⟨k0 + s.base a, fun i => ?_, fun k hk => ?_⟩
  · obtain ⟨hi, e, -⟩ := h.xi a i
    rw [e, UniformAxis.getElem hx0 hi, hk0']
    push_cast
    ring
  · set u := (x a - x0) * (1 / dx) with hu'
    have e : (x a - (o a + k * dx)) / dx = u - ((k - k0 : ℤ) : ℝ) := by
      rw [hu', hk0']; push_cast; field_simp; ring
    rw [e, abs_lt] at hk
    have h1 := Int.floor_le u
    have h2 := Int.lt_floor_add_one u
    have h3 : ((⌊u⌋ - 2 : ℤ) : ℝ) < ((k - k0 : ℤ) : ℝ) := by push_cast at hk ⊢; linarith [hk.2]
    have h4 : ((k - k0 : ℤ) : ℝ) < ((⌊u⌋ + 3 : ℤ) : ℝ) := by push_cast at hk ⊢; linarith [hk.1]
    have h3' : ⌊u⌋ - 2 < k - k0 := by exact_mod_cast h3
    have h4' : k - k0 < ⌊u⌋ + 3 := by exact_mod_cast h4
    refine ⟨⟨(k - k0 - s.base a).toNat, by omega⟩, ?_⟩
    simp only
    omega

/-- A sum over all nodes of the lattice is a sum over the stencil. -/
lemma overNodes_eq {M : Type*} [AddCommMonoid M] (S : Mpm.Scheme d) {x : Fin d → ℝ} {s : Stencil d ℝ} (hS : S.dx = dx)
    (hdx : 0 < dx) (hu : ∀ a, UniformAxis dx (g a)) (ho : OnLattice S.origin dx g) (h : GoodAt deg dx g x s)
    (f : (Fin d → ℝ) → M) (hf : ∀ X a, 2 ≤ |(x a - X a) / dx| → f X = 0) :
    S.overNodes f = ∑ c, f (s.nodePos c) := by
  choose b hb1 hb2 using h.near hdx hu ho
  have e : ∀ c, s.nodePos c = S.node fun a => b a + (c a : ℕ) := by
    intro c
    funext a
    simp only [Stencil.nodePos, hb1, Mpm.Scheme.node, hS]
  have hinj : Function.Injective fun (c : Fin d → Fin 4) (a : Fin d) => b a + ((c a : ℕ) : ℤ) := by
    intro c c' hc
    funext a
    have := congrFun hc a
    simp only at this
    exact Fin.ext (by omega)
  unfold Mpm.Scheme.overNodes
  rw [finsum_eq_sum_of_support_subset (s := Finset.univ.image fun (c : Fin d → Fin 4) (a : Fin d) => b a + ((c a : ℕ) : ℤ))]
  · rw [Finset.sum_image hinj.injOn]
    exact Finset.sum_congr rfl fun c _ => by rw [e]
  · intro k hk
    have hk' : ∀ a, ∃ i : Fin 4, k a = b a + (i : ℕ) := by
      intro a
      refine hb2 a _ ?_
      by_contra hc
      refine hk (hf _ a ?_)
      simp only [Mpm.Scheme.node, hS]
      exact not_lt.mp hc
    choose c hc using hk'
    simp only [Finset.coe_image, Finset.coe_univ, Set.image_univ, Set.mem_range]
    exact ⟨c, by funext a; rw [hc]⟩

lemma shape_far {X x : Fin d → ℝ} {a : Fin d} (h : 2 ≤ |(x a - X a) / dx|) : shape deg dx X x = 0 :=
  Finset.prod_eq_zero (Finset.mem_univ a) (N_out h)

lemma shapeGrad_far {X x : Fin d → ℝ} {a : Fin d} (h : 2 ≤ |(x a - X a) / dx|) : shapeGrad deg dx X x = 0 := by
  funext b
  refine Finset.prod_eq_zero (Finset.mem_univ a) ?_
  split_ifs
  · rw [dN_out h, zero_div]
  · exact N_out h

variable (S : Mpm.Scheme d) {x : Fin d → ℝ} {s : Stencil d ℝ} (hS : S.dx = dx) (hSd : S.deg = deg)
  (hdx : 0 < dx) (hu : ∀ a, UniformAxis dx (g a)) (ho : OnLattice S.origin dx g) (h : GoodAt deg dx g x s)
  {v : ℕ → Fin d → ℝ} {V : (Fin d → ℝ) → Fin d → ℝ} (hv : ∀ i, IsNode g i → v (flatIndex g.size i) = V (nodeAt g i))
include hS hSd hdx hu ho h hv

lemma interp_lattice : interpV g.size v s = S.interp V x := by
  rw [interpV_eq, Mpm.Scheme.interp, overNodes_eq S hS hdx hu ho h _ fun X a hX => by
    rw [hS, hSd, shape_far hX, zero_smul]]
  exact Finset.sum_congr rfl fun c _ => by rw [hv _ (h.ok.node_lt c), h.weight, h.pos, hS, hSd]

lemma grad_lattice : interpGrad g.size v s = S.grad V x := by
  rw [interpGrad_eq, Mpm.Scheme.grad, overNodes_eq S hS hdx hu ho h _ fun X a hX => by
    rw [hS, hSd, shapeGrad_far hX, vecMulVec_zero]]
  exact Finset.sum_congr rfl fun c _ => by rw [hv _ (h.ok.node_lt c), h.wgrad, h.pos, hS, hSd]

lemma moments_lattice : interpB g.size v s x = S.moments V x := by
  rw [interpB_eq, Mpm.Scheme.moments, overNodes_eq S hS hdx hu ho h _ fun X a hX => by
    rw [hS, hSd, shape_far hX, zero_smul]]
  exact Finset.sum_congr rfl fun c _ => by rw [hv _ (h.ok.node_lt c), h.weight, h.pos, hS, hSd]

end sums

section nodes
variable {d : ℕ} {deg : Deg} {dx fr m vol : ℝ} {mibf : Bool} {g : Axes d ℝ} {ps : List (Particle d ℝ)}

lemma sum_ite_filter {α M : Type*} [AddCommMonoid M] (c : α → Prop) [DecidablePred c] (f : α → M) (l : List α) :
    (l.map fun a => if c a then f a else 0).sum = ((l.filter fun a => c a).map f).sum := by
  induction l with
  | nil => rfl
  | cons a l ih =>
    by_cases h : c a
    · simp [List.filter_cons, h, ih]
    · simp [List.filter_cons, h, ih]

/-- `S` has the parameters of the program. -/
structure Agrees (S : Mpm.Scheme d) (deg : Deg) (dx fr : ℝ) (mibf : Bool) (m vol : ℝ) : Prop where
  deg : S.deg = deg
  dx : S.dx = dx
  ratio : S.ratio = fr
  mibf : S.mibf = mibf
  mass : S.mass = m
  volume : S.volume = vol

variable {S : Mpm.Scheme d} (hS : Agrees S deg dx fr mibf m vol)
include hS

lemma raw_near (h : GoodGrid dx g ps) {i : Fin d → ℕ} (hi : IsNode g i) :
    raw (mkTransferParams deg dx fr mibf m vol) deg dx g ps (flatIndex g.size i) =
      ((S.near ps (nodeAt g i)).map fun p =>
        nodeContribution deg dx (mkTransferParams deg dx fr mibf m vol) p (nodeAt g i)).sum := by
  classical
  rw [raw_node h hi]
  unfold Mpm.Scheme.near
  rw [hS.deg, hS.dx, ← sum_ite_filter (fun p : Particle d ℝ => 1 / 10 ^ 25 < shape deg dx (nodeAt g i) p.x)]
  congr 1

lemma raw_near_hom (h : GoodGrid dx g ps) {i : Fin d → ℕ} (hi : IsNode g i) {M : Type*} [AddCommMonoid M]
    (f : Cell d ℝ →+ M) :
    f (raw (mkTransferParams deg dx fr mibf m vol) deg dx g ps (flatIndex g.size i)) =
      ((S.near ps (nodeAt g i)).map fun p =>
        f (nodeContribution deg dx (mkTransferParams deg dx fr mibf m vol) p (nodeAt g i))).sum := by
  rw [raw_near hS h hi, map_list_sum, List.map_map]
  rfl

lemma sum_smul_list {α M : Type*} [AddCommGroup M] [Module ℝ M] (c : ℝ) (f : α → M) (l : List α) :
    c • (l.map f).sum = (l.map fun a => c • f a).sum := by
  rw [List.smul_sum, List.map_map]; rfl

/-- Mass, velocity, force and friction of a node. -/
lemma node_values (hd : deg ≠ .one) (hdx : 0 < dx) (hm : 0 < m) (h : GoodGrid dx g ps) {i : Fin d → ℕ} (hi : IsNode g i) :
    let P := mkTransferParams deg dx fr mibf m vol
    let c := p2gFinish P (raw P deg dx g ps) (flatIndex g.size i)
    let X := nodeAt g i
    c.mass = S.nodeMass ps X ∧ c.v = S.before ps X ∧ (-vol) • c.force = S.nodeForce ps X ∧
      c.friction = S.nodeFriction ps X := by
  intro P c X
  have h1 := raw_near_hom hS h hi Cell.massHom
  have h2 := raw_near_hom hS h hi Cell.vHom
  have h3 := raw_near_hom hS h hi Cell.forceHom
  have h4 := raw_near_hom hS h hi Cell.frictionHom
  simp only [Cell.massHom_apply, Cell.vHom_apply, Cell.forceHom_apply, Cell.frictionHom_apply, nodeContribution] at h1 h2 h3 h4
  have hM : S.nodeMass ps X = (raw P deg dx g ps (flatIndex g.size i)).mass * m := by
    rw [h1, Mpm.Scheme.nodeMass, hS.deg, hS.dx, hS.mass, mul_comm, ← smul_eq_mul, sum_smul_list hS]
    simp only [smul_eq_mul]
    rfl
  have hP : S.nodeMomentum ps X = m • (raw P deg dx g ps (flatIndex g.size i)).v := by
    rw [h2, Mpm.Scheme.nodeMomentum, hS.deg, hS.dx, hS.mass, sum_smul_list hS]
    congr 1
    refine List.map_congr_left fun p _ => ?_
    rw [mul_smul]
    congr 1
    unfold Mpm.Scheme.affine Mpm.Scheme.apic
    by_cases hr : fr < 0
    · rw [if_pos (by rw [hS.ratio]; exact hr), if_pos (show (mkTransferParams deg dx fr mibf m vol).flipRatio < 0 from hr),
        smul_add, smul_smul]
      congr 2
      have : (mkTransferParams deg dx fr mibf m vol).apicDinverse = 1 / S.inertia := by
        unfold Mpm.Scheme.inertia
        rw [hS.dx, hS.deg]
        cases deg
        · exact absurd rfl hd
        · simp only [mkTransferParams]; field_simp
        · simp only [mkTransferParams]; field_simp
      rw [this, mul_comm]
    · rw [if_neg (by rw [hS.ratio]; exact hr),
        if_neg (show ¬ (mkTransferParams deg dx fr mibf m vol).flipRatio < 0 from hr), add_zero]
  have hpos : 0 < S.nodeMass ps X ↔ (raw P deg dx g ps (flatIndex g.size i)).mass > 0 := by
    rw [hM]; exact ⟨fun h => pos_of_mul_pos_left h hm.le, fun h => mul_pos h hm⟩
  refine ⟨hM.symm, ?_, ?_, ?_⟩
  · unfold Mpm.Scheme.before
    by_cases h0 : 0 < S.nodeMass ps X
    · have h0' := hpos.mp h0
      rw [if_pos h0, hP, hM, smul_smul]
      simp only [c, p2gFinish, if_pos h0']
      congr 1
      field_simp
    · rw [if_neg h0]
      simp only [c, p2gFinish, if_neg fun h => h0 (hpos.mpr h)]
  · rw [Mpm.Scheme.nodeForce, hS.deg, hS.dx, hS.volume, ← sum_smul_list hS, neg_smul]
    show -(vol • (raw P deg dx g ps (flatIndex g.size i)).force) = _
    rw [h3]
  · unfold Mpm.Scheme.nodeFriction
    rw [hS.mibf]
    cases mibf with
    | true =>
      simp only [if_true, c, p2gFinish, P, mkTransferParams]
      rw [hM, hS.deg, hS.dx, hS.mass]
      show (raw P deg dx g ps (flatIndex g.size i)).friction / _ = _
      rw [h4]
      have : ((S.near ps X).map fun p => m * shape deg dx X p.x * p.muI).sum =
          m * ((S.near ps X).map fun p => if (mkTransferParams deg dx fr true m vol).useMibf = true then
            p.muI * shape deg dx X p.x else 0).sum := by
        rw [← smul_eq_mul, sum_smul_list hS]
        congr 1
        refine List.map_congr_left fun p _ => ?_
        simp only [mkTransferParams, if_true, smul_eq_mul]
        ring
      rw [this, mul_comm _ m, mul_div_mul_left _ _ hm.ne']
      rfl
    | false =>
      simp only [c, p2gFinish, P, mkTransferParams, Bool.false_eq_true, if_false]
      show (raw P deg dx g ps (flatIndex g.size i)).friction = _
      rw [h4]
      apply List.sum_eq_zero
      intro a ha
      obtain ⟨p, -, rfl⟩ := List.mem_map.mp ha
      rfl

/-- The velocities of a node after the Euler step and their change. -/
lemma node_euler {dt : ℝ} {grav : Fin d → ℝ} {bc : ℕ → (Fin d → ℝ) → (Fin d → ℝ) → (Fin d → ℝ)}
    (hdt : S.dt = dt) (hgr : S.gravity = grav) (hd : deg ≠ .one) (hdx : 0 < dx) (hm : 0 < m) (h : GoodGrid dx g ps)
    (hbc : ∀ i X v, IsNode g i → bc (flatIndex g.size i) X v = S.wall
      (p2gFinish (mkTransferParams deg dx fr mibf m vol) (raw (mkTransferParams deg dx fr mibf m vol) deg dx g ps)
        (flatIndex g.size i)).friction X v)
    {i : Fin d → ℕ} (hi : IsNode g i) :
    let P := mkTransferParams deg dx fr mibf m vol
    let e := eulerUpdate P dt grav bc g (p2gFinish P (raw P deg dx g ps))
    e.v (flatIndex g.size i) = S.after ps (nodeAt g i) ∧
      e.flip (flatIndex g.size i) = S.after ps (nodeAt g i) - S.before ps (nodeAt g i) := by
  intro P e
  obtain ⟨h1, h2, h3, h4⟩ := node_values hS hd hdx hm h hi
  have he := eulerUpdate_at P dt grav bc g (p2gFinish P (raw P deg dx g ps)) hi
  simp only at he
  have hin : incrAt P dt grav (p2gFinish P (raw P deg dx g ps) (flatIndex g.size i)) =
      S.dt • ((1 / S.nodeMass ps (nodeAt g i)) • S.nodeForce ps (nodeAt g i) + S.gravity) := by
    rw [incrAt, ← h3, h1, hdt, hgr, smul_add, smul_smul, smul_smul]
    congr 2
    show -(dt * vol) / _ = _
    ring
  rw [show e = eulerUpdate P dt grav bc g (p2gFinish P (raw P deg dx g ps)) from rfl, he.1, he.2, h1, hin, h2, hbc _ _ _ hi, h4]
  unfold Mpm.Scheme.after
  by_cases h0 : 0 < S.nodeMass ps (nodeAt g i)
  · rw [if_pos (show S.nodeMass ps (nodeAt g i) > 0 from h0), if_pos (show S.nodeMass ps (nodeAt g i) > 0 from h0), if_pos h0]
    exact ⟨rfl, rfl⟩
  · rw [if_neg (show ¬ S.nodeMass ps (nodeAt g i) > 0 from h0), if_neg (show ¬ S.nodeMass ps (nodeAt g i) > 0 from h0), if_neg h0]
    unfold Mpm.Scheme.before
    rw [if_neg h0, sub_zero]
    exact ⟨rfl, rfl⟩

end nodes

section maps
variable {d : ℕ} (S : Mpm.Scheme d) {ps : List (Particle d ℝ)} {f f' : Particle d ℝ → Particle d ℝ}

lemma near_map (hx : ∀ p ∈ ps, (f p).x = p.x) (X : Fin d → ℝ) : S.near (ps.map f) X = (S.near ps X).map f := by
  unfold Mpm.Scheme.near
  rw [List.filter_map]
  congr 1
  refine List.filter_congr fun p hp => ?_
  simp only [Function.comp, hx p hp]

lemma nodeMass_map (hx : ∀ p ∈ ps, (f p).x = p.x) (X : Fin d → ℝ) : S.nodeMass (ps.map f) X = S.nodeMass ps X := by
  unfold Mpm.Scheme.nodeMass
  rw [near_map S hx, List.map_map]
  congr 1
  refine List.map_congr_left fun p hp => ?_
  simp only [Function.comp, hx p (List.mem_of_mem_filter hp)]

lemma before_congr (hx : ∀ p ∈ ps, (f p).x = p.x) (hx' : ∀ p ∈ ps, (f' p).x = p.x) (hv : ∀ p ∈ ps, (f p).v = (f' p).v)
    (hB : ∀ p ∈ ps, (f p).Bmat = (f' p).Bmat) (X : Fin d → ℝ) : S.before (ps.map f) X = S.before (ps.map f') X := by
  unfold Mpm.Scheme.before
  rw [nodeMass_map S hx, nodeMass_map S hx']
  have : S.nodeMomentum (ps.map f) X = S.nodeMomentum (ps.map f') X := by
    unfold Mpm.Scheme.nodeMomentum
    rw [near_map S hx, near_map S hx', List.map_map, List.map_map]
    congr 1
    refine List.map_congr_left fun p hp => ?_
    have hp := List.mem_of_mem_filter hp
    simp only [Function.comp, Mpm.Scheme.affine, hx p hp, hx' p hp, hv p hp, hB p hp]
  rw [this]

end maps

section step
variable {d : ℕ} {R : Setup (d + 2)} {deg : Deg} {dx fr m vol dt : ℝ} {mibf : Bool} {grav o : Fin (d + 2) → ℝ}
  {g : Axes (d + 2) ℝ} {w : World (d + 2)}

/-- The method the program carries out with the given step, gravity and plates. -/
noncomputable def schemeOf (R : Setup (d + 2)) (o : Fin (d + 2) → ℝ) (dt : ℝ) (grav : Fin (d + 2) → ℝ)
    (plates : List (Plate (d + 2))) : Mpm.Scheme (d + 2) where
  deg := R.S.P.deg
  dx := R.S.P.dx
  origin := o
  mass := R.S.P.particleMass
  volume := R.S.P.particleVolume
  ratio := R.S.P.flipRatio
  musl := R.S.useMusl
  mibf := R.S.P.useMibf
  dt := dt
  gravity := grav
  wall μ X v := boundaryCollision R.ops R.S.P.useMibf (fun _ => μ) dt R.objs plates 0 X v
  law := plasticUpdate R dt
  place := if R.S.changePos then reinsert else id

variable (hP : R.S.P = mkTransferParams deg dx fr mibf m vol) (hd : deg ≠ .one) (hdx : 0 < dx) (hm : 0 < m)
  (hg : GoodGrid dx g w.ps) (ho : OnLattice o dx g)
include hP

lemma schemeOf_agrees : Agrees (schemeOf R o dt grav w.plates) deg dx fr mibf m vol := by
  constructor <;> simp only [schemeOf, hP] <;> rfl

include hd hdx hm hg

lemma step_after {i : Fin (d + 2) → ℕ} (hi : IsNode g i) :
    let S := schemeOf R o dt grav w.plates
    let e := stepEuler R.S deg dx dt grav (wallsOn R deg dx dt g w) g w.ps
    e.v (flatIndex g.size i) = S.after w.ps (nodeAt g i) ∧
      e.flip (flatIndex g.size i) = S.after w.ps (nodeAt g i) - S.before w.ps (nodeAt g i) := by
  intro S e
  have := node_euler (schemeOf_agrees (o := o) (dt := dt) (grav := grav) (w := w) hP) (dt := dt) (grav := grav)
    (bc := wallsOn R deg dx dt g w) rfl rfl hd hdx hm hg (fun i X v hi => by
      simp only [wallsOn, schemeOf, boundaryCollision, hP]
      rfl) hi
  simp only [e, stepEuler, hP]
  exact this

include ho

variable {p : Particle (d + 2) ℝ} (hp : p ∈ w.ps)
include hp

lemma step_transfer :
    let S := schemeOf R o dt grav w.plates
    let q := g2pTransfer R.S.P g.size (stepEuler R.S deg dx dt grav (wallsOn R deg dx dt g w) g w.ps) p (stencilOf deg dx g p.x)
    q = { p with
      pic := S.interp (S.after w.ps) p.x
      Bmat := S.newAffine w.ps p
      flip := if -1 ≤ fr then S.interp (fun X => S.after w.ps X - S.before w.ps X) p.x else 0 } ∧
    blendVelocity R.S.P q = S.newVelocity w.ps p := by
  classical
  intro S q
  have hA := schemeOf_agrees (o := o) (dt := dt) (grav := grav) (w := w) hP
  have hgd := hg.good (deg := deg) hp
  have hav := fun i hi => step_after (o := o) (dt := dt) (grav := grav) hP hd hdx hm hg (i := i) hi
  have e1 := interp_lattice S hA.dx hA.deg hdx hg.uniform ho hgd fun i hi => (hav i hi).1
  have e2 := interp_lattice S (V := fun X => S.after w.ps X - S.before w.ps X) hA.dx hA.deg hdx hg.uniform ho hgd
    fun i hi => (hav i hi).2
  have e3 := moments_lattice S hA.dx hA.deg hdx hg.uniform ho hgd fun i hi => (hav i hi).1
  have hr : R.S.P.flipRatio = fr := by rw [hP]; rfl
  have hq : q = { p with
      pic := S.interp (S.after w.ps) p.x
      Bmat := S.newAffine w.ps p
      flip := if -1 ≤ fr then S.interp (fun X => S.after w.ps X - S.before w.ps X) p.x else 0 } := by
    simp only [q, g2pTransfer, hr, ge_iff_le]
    rw [e1, e2, e3]
    unfold Mpm.Scheme.newAffine Mpm.Scheme.apic
    rw [hA.ratio]
  refine ⟨hq, ?_⟩
  rw [hq]
  have hr' : S.ratio = fr := hA.ratio
  simp only [blendVelocity, hr, Mpm.Scheme.newVelocity, hr']
  by_cases h1 : fr < -1
  · rw [if_pos h1, if_pos h1]
  · rw [if_neg h1, if_neg h1, if_pos (not_lt.mp h1)]
    by_cases h2 : fr < 0
    · rw [if_pos h2, abs_of_neg h2]
    · rw [if_neg h2, abs_of_nonneg (not_lt.mp h2)]

omit hp in
include ho in
/-- The node velocities used for the deformation. -/
lemma step_deforming {i : Fin (d + 2) → ℕ} (hi : IsNode g i) :
    let S := schemeOf R o dt grav w.plates
    gradVel R.S deg dx dt grav (wallsOn R deg dx dt g w) g w.ps (flatIndex g.size i) = S.deforming w.ps (nodeAt g i) := by
  intro S
  have hA := schemeOf_agrees (o := o) (dt := dt) (grav := grav) (w := w) hP
  have hmu : S.musl = R.S.useMusl := rfl
  unfold Mpm.Scheme.deforming
  rw [hmu]
  by_cases hu : R.S.useMusl = true
  swap
  · rw [if_neg hu]
    simp only [gradVel, if_neg hu]
    exact (step_after hP hd hdx hm hg hi).1
  rw [if_pos hu]
  simp only [gradVel, if_pos hu]
  set up : Particle (d + 2) ℝ → Particle (d + 2) ℝ := fun p =>
    let q := g2pTransfer R.S.P g.size (stepEuler R.S deg dx dt grav (wallsOn R deg dx dt g w) g w.ps) p (stencilOf deg dx g p.x)
    { q with v := blendVelocity R.S.P q } with hup
  have ht := fun p hp => step_transfer (o := o) (dt := dt) (grav := grav) hP hd hdx hm hg ho (p := p) hp
  have hv := (node_values hA hd hdx hm (ps := w.ps.map up) (hg.map fun _ _ => rfl) hi).2.1
  have hm1 := (node_values hA hd hdx hm (ps := w.ps.map up) (hg.map fun _ _ => rfl) hi).1
  have hm2 := (node_values hA hd hdx hm (ps := w.ps) hg hi).1
  rw [nodeMass_map (f := up) _ fun _ _ => rfl] at hm1
  rw [show S.before (S.pushed w.ps) (nodeAt g i) = S.before (w.ps.map up) (nodeAt g i) from
    before_congr S (f := fun p => { p with v := S.newVelocity w.ps p, Bmat := S.newAffine w.ps p }) (f' := up)
      (fun _ _ => rfl) (fun _ _ => rfl) (fun p hp => (ht p hp).2.symm) (fun p hp => by
      simp only [hup, (ht p hp).1]; rfl) _]
  rw [← hv]
  have hmass : (raw R.S.P deg dx g w.ps (flatIndex g.size i)).mass =
      (raw R.S.P deg dx g (w.ps.map up) (flatIndex g.size i)).mass := by
    have := hm2.trans hm1.symm
    simp only [p2gFinish] at this
    rw [hP]
    exact mul_right_cancel₀ hm.ne' this
  simp only [muslFinish, p2gFinish, ← hP, ← hmass]
  have hpm : R.S.P.particleMass = m := by rw [hP]; rfl
  have hm' : 0 < R.S.P.particleMass := by rw [hpm]; exact hm
  by_cases h0 : (raw R.S.P deg dx g w.ps (flatIndex g.size i)).mass > 0
  · refine (if_pos (mul_pos h0 hm')).trans (Eq.trans ?_ (if_pos h0).symm)
    rw [mul_div_cancel_right₀ _ hm'.ne']
  · exact (if_neg fun h => h0 (pos_of_mul_pos_left h hm'.le)).trans (if_neg h0).symm

lemma step_gradient :
    let S := schemeOf R o dt grav w.plates
    interpGrad g.size (gradVel R.S deg dx dt grav (wallsOn R deg dx dt g w) g w.ps) (stencilOf deg dx g p.x) =
      S.grad (S.deforming w.ps) p.x := by
  intro S
  have hA := schemeOf_agrees (o := o) (dt := dt) (grav := grav) (w := w) hP
  exact grad_lattice S hA.dx hA.deg hdx hg.uniform ho (hg.good (deg := deg) hp) fun i hi =>
    step_deforming hP hd hdx hm hg ho hi

/-- What the program does with a particle is what the method does. -/
lemma particleStep_scheme :
    let S := schemeOf R o dt grav w.plates
    (particleStep R deg dx dt grav g w p).map (fun q =>
        (positionParticle R.S.P R.S.useMusl false R.S.changePos (R.S.L 0) dt q.1, q.2)) = S.particle w.ps p := by
  intro S
  obtain ⟨h1, h2⟩ := step_transfer (o := o) (dt := dt) (grav := grav) hP hd hdx hm hg ho hp
  have h3 := step_gradient (o := o) (dt := dt) (grav := grav) hP hd hdx hm hg ho hp
  have hr : S.ratio = fr := (schemeOf_agrees hP).ratio
  have htr : ∀ q0 : Particle (d + 2) ℝ, q0 = S.trial w.ps p →
      (plasticUpdate R dt q0).map (fun q =>
        (positionParticle R.S.P R.S.useMusl false R.S.changePos (R.S.L 0) dt q.1, q.2)) = S.particle w.ps p := by
    rintro _ rfl
    unfold Mpm.Scheme.particle
    show _ = (plasticUpdate R dt (S.trial w.ps p)).map _
    simp only [plasticUpdate, Option.map_map]
    cases ho : plasticity R.cabs R.svd R.m dt (S.trial w.ps p) false with
    | none => rfl
    | some out =>
      obtain ⟨hx, hv, hpic, hflip, hB⟩ := motion_plasticity ho
      simp only [Option.map_some, Function.comp, Option.some.injEq, Prod.mk.injEq, and_true]
      simp only [positionParticle, Bool.false_eq_true, if_false]
      have hplace : ∀ x, (if R.S.changePos = true then reinsert x else x) = S.place x := by
        intro x
        show _ = (if R.S.changePos = true then reinsert else id) x
        split_ifs <;> rfl
      have hvel : (if R.S.useMusl = true then out.q.v else blendVelocity R.S.P out.q) = S.newVelocity w.ps p := by
        by_cases hu : R.S.useMusl = true
        · rw [if_pos hu, hv]
          exact if_pos hu
        · rw [if_neg hu, ← h2, h1]
          have e1 : (S.trial w.ps p).v = p.v := if_neg hu
          have e2 : (S.trial w.ps p).flip =
              if -1 ≤ fr then S.interp (fun X => S.after w.ps X - S.before w.ps X) p.x else 0 := by
            simp only [Mpm.Scheme.trial, hr]
          simp only [blendVelocity, hv, hpic, hflip, e1, e2]
          rfl
      rw [hvel, hplace, hx, hpic]
      rfl
  unfold particleStep
  simp only
  apply htr
  rw [h3, h1]
  have hF : trialF dt (S.grad (S.deforming w.ps) p.x) p.F = (1 + dt • S.grad (S.deforming w.ps) p.x) * p.F := by
    rw [trialF, add_mul, one_mul, smul_mul_assoc]
  have hF : trialF dt ((schemeOf R o dt grav w.plates).grad ((schemeOf R o dt grav w.plates).deforming w.ps) p.x) p.F =
    (1 + dt • S.grad (S.deforming w.ps) p.x) * p.F := hF
  rw [hF]
  rw [h1] at h2
  by_cases hu : R.S.useMusl = true
  · simp only [if_pos hu, h2, Mpm.Scheme.trial, show S.musl = R.S.useMusl from rfl, hr]
    rfl
  · simp only [if_neg hu, Mpm.Scheme.trial, show S.musl = R.S.useMusl from rfl, hr]
    rfl

end step

end Verif
