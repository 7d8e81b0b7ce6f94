import Verif.Lemmas.PermutePlastic
import Verif.Props.AnySvd
import Verif.Props.Local
import Verif.Props.RunExamples
import Verif.Props.WallMomentum

set_option linter.unusedSimpArgs false
set_option linter.unusedVariables false
set_option linter.unusedSectionVars false

/-!
# C104: the numbering of the axes does not matter

Renumbering the axes of the whole problem (particles, gravity, objects, walls, reference point) renumbers the axes of
everything in every file and changes nothing else, although the grid nodes are stored in another order.
-/

namespace Verif.Props
open Verif Matrix

/-! ### what it means to renumber the axes -/

section spec
variable {d : ℕ}

open Classical in
/-- A field on the nodes of a grid of size `n`, stored in the order of the renumbered grid; zero beyond the grid. -/
noncomputable def permField {α : Type*} [Zero α] (σ : Equiv.Perm (Fin d)) (n : Fin d → ℕ) (φ : ℕ → α) : ℕ → α := fun l =>
  if h : ∃ i : Fin d → ℕ, (∀ a, i a < n a) ∧ flatIndex (permV σ n) (permV σ i) = l then φ (flatIndex n h.choose) else 0

/-- The world in the renumbered system; `sh` renumbers a wall. -/
noncomputable def permWorld (σ : Equiv.Perm (Fin d)) (sh : Plate d → Plate d) (w : World d) : World d where
  ps := w.ps.map (permP σ)
  box := w.box.map (permV σ)
  g := permV σ w.g
  plates := w.plates.map sh
  mass := permField σ w.g.size w.mass
  vel := fun l => permV σ (permField σ w.g.size w.vel l)
  friction := permField σ w.g.size w.friction

/-- The set-up in the renumbered system, with the decomposition `svd'` and the distribution `sched'` to threads. -/
def permSetup (σ : Equiv.Perm (Fin d)) (R : Setup d) (svd' : Matrix (Fin d) (Fin d) ℝ → Svd d)
    (sched' : ℕ → List (Particle d ℝ) → List (List (Particle d ℝ))) : Setup d :=
  { R with
    objs := R.objs.map (permObj σ)
    S := { R.S with ref := R.S.ref.map (permV σ) }
    svd := svd'
    sched := sched' }

/-- What the treatment of walls has to do with the renumbered walls; only the walls in `A` are considered. -/
structure PlatePerm (ops : PlateOps d) (mibf : Bool) (σ : Equiv.Perm (Fin d)) (sh : Plate d → Plate d)
    (A : Plate d → Prop) : Prop where
  inside : ∀ p, A p → ∀ X, ops.inside (sh p) (permV σ X) ↔ ops.inside p X
  rel : ∀ p, A p → ∀ fr, (mibf = false → fr = p.friction) → ∀ r,
    ops.rel (sh p).type (sh p).bc fr (permV σ r) = permV σ (ops.rel p.type p.bc fr r)
  friction : ∀ p, A p → (sh p).friction = p.friction
  vel : ∀ p, A p → (sh p).vel = permV σ p.vel
  move : ∀ p, A p → ∀ dt f t, ops.move (sh p) dt f t = sh (ops.move p dt f t)
  keep : ∀ p, A p → ∀ dt f t, A (ops.move p dt f t)

/-- The wall with directions 0 and 1 exchanged: what was left is bottom, what was right is top. -/
def swapPlate (p : Plate (d + 2)) : Plate (d + 2) :=
  { p with
    type := match p.type with
      | .left => .bottom
      | .bottom => .left
      | .right => .top
      | .top => .right
      | t => t
    vel := permV (Equiv.swap 0 1) p.vel
    velOrig := permV (Equiv.swap 0 1) p.velOrig }

end spec

section field
variable {d : ℕ} {σ : Equiv.Perm (Fin d)} {α : Type*} [Zero α]

lemma permV_injective : Function.Injective (permV σ : (Fin d → ℕ) → Fin d → ℕ) := fun u v h => by
  rw [← permV_symm' (σ := σ) u, h, permV_symm']

lemma permField_node (n : Fin d → ℕ) (φ : ℕ → α) {i : Fin d → ℕ} (hi : ∀ a, i a < n a) :
    permField σ n φ (flatIndex (permV σ n) (permV σ i)) = φ (flatIndex n i) := by
  have h : ∃ j : Fin d → ℕ, (∀ a, j a < n a) ∧ flatIndex (permV σ n) (permV σ j) = flatIndex (permV σ n) (permV σ i) := ⟨i, hi, rfl⟩
  unfold permField
  rw [dif_pos h]
  have h1 := h.choose_spec
  generalize h.choose = j at h1 ⊢
  have : permV σ j = permV σ i := flatIndex_inj (fun a => h1.1 (σ a)) (fun a => hi (σ a)) h1.2
  rw [permV_injective this]

/-- A field that is zero beyond the renumbered grid and agrees on the nodes is the renumbered field. -/
lemma eq_permField {g : Axes d ℝ} {φ φ' : ℕ → α}
    (h : ∀ i, IsNode g i → φ' (flatIndex (Axes.size (permV σ g)) (permV σ i)) = φ (flatIndex g.size i))
    (h0 : ∀ l, (∀ i, IsNode (permV σ g) i → flatIndex (Axes.size (permV σ g)) i ≠ l) → φ' l = 0) :
    φ' = permField σ g.size φ := by
  funext l
  by_cases hl : ∃ i : Fin d → ℕ, (∀ a, i a < g.size a) ∧ flatIndex (permV σ g.size) (permV σ i) = l
  · obtain ⟨i, hi, rfl⟩ := hl
    rw [permField_node _ _ hi]
    exact h i hi
  · rw [permField, dif_neg hl]
    refine h0 l fun i hi e => hl ⟨permV σ.symm i, fun a => ?_, ?_⟩
    · have := hi (σ.symm a)
      simpa [Axes.size] using this
    · rw [permV_symm]; exact e

end field

/-! ### a step -/

section step
variable {d : ℕ} {R : Setup (d + 2)} {σ : Equiv.Perm (Fin (d + 2))} {sh : Plate (d + 2) → Plate (d + 2)}
  {A : Plate (d + 2) → Prop}
  {sched' : ℕ → List (Particle (d + 2) ℝ) → List (List (Particle (d + 2) ℝ))} {deg : Deg} {dx dt : ℝ}
  {g : Axes (d + 2) ℝ} {w : World (d + 2)} {grav : Fin (d + 2) → ℝ}

local notation "R'" => permSetup σ R (permSvd σ R.svd) sched'

lemma collidePlates_perm (hsh : PlatePerm R.ops R.S.P.useMibf σ sh A) {fr : ℝ → ℝ}
    (hfr : ∀ x, R.S.P.useMibf = false → fr x = x) (X : Fin (d + 2) → ℝ) :
    ∀ (plates : List (Plate (d + 2))), (∀ p ∈ plates, A p) → ∀ v,
    collidePlates R.ops.inside R.ops.rel fr (permV σ X) (plates.map sh) (permV σ v) =
      permV σ (collidePlates R.ops.inside R.ops.rel fr X plates v) := by
  intro plates
  unfold collidePlates
  induction plates with
  | nil => intro _ v; rfl
  | cons p ps ih =>
    intro hA v
    have hp := hA p List.mem_cons_self
    rw [List.map_cons, List.foldl_cons, List.foldl_cons, ← ih fun q hq => hA q (List.mem_cons_of_mem _ hq)]
    congr 1
    by_cases ho : R.ops.inside p X
    · rw [if_pos ho, if_pos ((hsh.inside p hp X).mpr ho), hsh.vel p hp, ← permV_sub, hsh.friction p hp,
        hsh.rel p hp _ (hfr _), ← permV_add]
    · rw [if_neg ho, if_neg fun h => ho ((hsh.inside p hp X).mp h)]

variable (hg : GoodGrid dx g w.ps) (hsh : PlatePerm R.ops R.S.P.useMibf σ sh A) (hA : ∀ p ∈ w.plates, A p)
include hg hsh hA

lemma walls_perm {i : Fin (d + 2) → ℕ} (hi : IsNode g i) (X v : Fin (d + 2) → ℝ) :
    wallsOn R' deg dx dt (permV σ g) (permWorld σ sh w) (flatIndex (Axes.size (permV σ g)) (permV σ i)) (permV σ X)
        (permV σ v) =
      permV σ (wallsOn R deg dx dt g w (flatIndex g.size i) X v) := by
  have hf : ∀ own, wallFriction R.S.P.useMibf (fun l => (p2gFinish R.S.P (raw R.S.P deg dx (permV σ g) (w.ps.map (permP σ))) l).friction)
      (flatIndex (Axes.size (permV σ g)) (permV σ i)) own =
      wallFriction R.S.P.useMibf (fun l => (p2gFinish R.S.P (raw R.S.P deg dx g w.ps) l).friction) (flatIndex g.size i) own := by
    intro own
    simp only [wallFriction, finish_perm R.S.P hg hi]
    rfl
  have key : ∀ fr : ℝ → ℝ, fr = wallFriction R.S.P.useMibf (fun l => (p2gFinish R.S.P (raw R.S.P deg dx g w.ps) l).friction)
      (flatIndex g.size i) → collidePlates R.ops.inside R.ops.rel fr (permV σ X + dt • permV σ v) (w.plates.map sh)
        (collideObjects fr (permV σ X + dt • permV σ v) (R.objs.map (permObj σ)) (permV σ v)) =
      permV σ (wallsOn R deg dx dt g w (flatIndex g.size i) X v) := by
    rintro fr rfl
    rw [← permV_smul, ← permV_add, collideObjects_perm, collidePlates_perm hsh _ _ _ hA]
    · rfl
    · intro x hx
      simp [wallFriction, hx]
  exact key _ (funext hf)

lemma euler_perm {i : Fin (d + 2) → ℕ} (hi : IsNode g i) :
    (stepEuler (R').S deg dx dt (permV σ grav) (wallsOn R' deg dx dt (permV σ g) (permWorld σ sh w)) (permV σ g)
        (w.ps.map (permP σ))).v (flatIndex (Axes.size (permV σ g)) (permV σ i)) =
      permV σ ((stepEuler R.S deg dx dt grav (wallsOn R deg dx dt g w) g w.ps).v (flatIndex g.size i)) ∧
    (stepEuler (R').S deg dx dt (permV σ grav) (wallsOn R' deg dx dt (permV σ g) (permWorld σ sh w)) (permV σ g)
        (w.ps.map (permP σ))).flip (flatIndex (Axes.size (permV σ g)) (permV σ i)) =
      permV σ ((stepEuler R.S deg dx dt grav (wallsOn R deg dx dt g w) g w.ps).flip (flatIndex g.size i)) := by
  have h1 := eulerUpdate_at (P := R.S.P) (dt := dt) (grav := permV σ grav)
    (bc := wallsOn R' deg dx dt (permV σ g) (permWorld σ sh w)) (g := permV σ g)
    (arr := p2gFinish R.S.P (raw R.S.P deg dx (permV σ g) (w.ps.map (permP σ)))) (isNode_perm hi)
  have h2 := eulerUpdate_at (P := R.S.P) (dt := dt) (grav := grav) (bc := wallsOn R deg dx dt g w)
    (g := g) (arr := p2gFinish R.S.P (raw R.S.P deg dx g w.ps)) hi
  simp only [finish_perm R.S.P hg hi] at h1
  simp only [stepEuler]
  rw [show (R').S.P = R.S.P from rfl, h1.1, h1.2, h2.1, h2.2]
  generalize p2gFinish R.S.P (raw R.S.P deg dx g w.ps) (flatIndex g.size i) = c
  have e1 : (permCell σ c).mass = c.mass := rfl
  have e2 : (permCell σ c).v = permV σ c.v := rfl
  have e3 : incrAt R.S.P dt (permV σ grav) (permCell σ c) = permV σ (incrAt R.S.P dt grav c) := rfl
  rw [e1, e2, e3, ← permV_add, nodeAt_perm, walls_perm hg hsh hA hi]
  split_ifs <;> exact ⟨rfl, rfl⟩

lemma transfer_perm {p : Particle (d + 2) ℝ} (hp : p ∈ w.ps) :
    g2pTransfer R.S.P (Axes.size (permV σ g)) (stepEuler (R').S deg dx dt (permV σ grav)
        (wallsOn R' deg dx dt (permV σ g) (permWorld σ sh w)) (permV σ g) (w.ps.map (permP σ))) (permP σ p)
        (stencilOf deg dx (permV σ g) (permV σ p.x)) =
      permP σ (g2pTransfer R.S.P g.size (stepEuler R.S deg dx dt grav (wallsOn R deg dx dt g w) g w.ps) p (stencilOf deg dx g p.x)) := by
  have hok := (hg.good (deg := deg) hp).ok
  have h1 : FieldRel σ g.size (stepEuler R.S deg dx dt grav (wallsOn R deg dx dt g w) g w.ps).v
      (stepEuler (R').S deg dx dt (permV σ grav)
        (wallsOn R' deg dx dt (permV σ g) (permWorld σ sh w)) (permV σ g) (w.ps.map (permP σ))).v :=
    fun i hi => (euler_perm hg hsh hA hi).1
  have h2 : FieldRel σ g.size (stepEuler R.S deg dx dt grav (wallsOn R deg dx dt g w) g w.ps).flip
      (stepEuler (R').S deg dx dt (permV σ grav)
        (wallsOn R' deg dx dt (permV σ g) (permWorld σ sh w)) (permV σ g) (w.ps.map (permP σ))).flip :=
    fun i hi => (euler_perm hg hsh hA hi).2
  rw [stencilOf_perm]
  simp only [g2pTransfer, interpV_perm hok h1, interpV_perm hok h2]
  rw [show (permP σ p).x = permV σ p.x from rfl, interpB_perm hok h1]
  simp only [permP]
  by_cases c1 : R.S.P.flipRatio < 0 <;> by_cases c2 : R.S.P.flipRatio ≥ -1 <;> simp only [c1, c2, if_true, if_false] <;> rfl

omit hg hsh hA in
lemma blend_perm (P : TransferParams ℝ) (q : Particle (d + 2) ℝ) : blendVelocity P (permP σ q) = permV σ (blendVelocity P q) := by
  unfold blendVelocity
  split_ifs <;> rfl

lemma gradVel_perm : FieldRel σ g.size (gradVel R.S deg dx dt grav (wallsOn R deg dx dt g w) g w.ps)
    (gradVel (R').S deg dx dt (permV σ grav) (wallsOn R' deg dx dt (permV σ g) (permWorld σ sh w)) (permV σ g)
      (w.ps.map (permP σ))) := by
  intro i hi
  unfold gradVel
  by_cases hu : R.S.useMusl = true
  swap
  · rw [if_neg hu]
    rw [if_neg (show ¬ (R').S.useMusl = true from hu)]
    exact (euler_perm hg hsh hA hi).1
  rw [if_pos hu, if_pos (show (R').S.useMusl = true from hu)]
  have hq : ((w.ps.map (permP σ)).map fun p =>
        let q := g2pTransfer R.S.P (Axes.size (permV σ g)) (stepEuler (R').S deg dx dt (permV σ grav)
          (wallsOn R' deg dx dt (permV σ g) (permWorld σ sh w)) (permV σ g) (w.ps.map (permP σ))) p
          (stencilOf deg dx (permV σ g) p.x)
        ({ q with v := blendVelocity R.S.P q } : Particle (d + 2) ℝ)) =
      (w.ps.map fun p =>
        let q := g2pTransfer R.S.P g.size (stepEuler R.S deg dx dt grav (wallsOn R deg dx dt g w) g w.ps) p (stencilOf deg dx g p.x)
        ({ q with v := blendVelocity R.S.P q } : Particle (d + 2) ℝ)).map (permP σ) := by
    rw [List.map_map, List.map_map]
    refine List.map_congr_left fun p hp => ?_
    simp only [Function.comp]
    rw [show (permP σ p).x = permV σ p.x from rfl, transfer_perm hg hsh hA hp, blend_perm]
    rfl
  have hgood : GoodGrid dx g (w.ps.map fun p =>
        let q := g2pTransfer R.S.P g.size (stepEuler R.S deg dx dt grav (wallsOn R deg dx dt g w) g w.ps) p (stencilOf deg dx g p.x)
        ({ q with v := blendVelocity R.S.P q } : Particle (d + 2) ℝ)) := hg.map fun _ _ => rfl
  simp only [muslFinish]
  rw [show (R').S.P = R.S.P from rfl, hq]
  have h1 := raw_perm_axes (deg := deg) (σ := σ) R.S.P hgood hi
  have h2 := finish_perm (deg := deg) (σ := σ) R.S.P hg hi
  rw [show flatIndex (permV σ g.size) (permV σ i) = flatIndex (Axes.size (permV σ g)) (permV σ i) from rfl, h1, h2]
  generalize p2gFinish R.S.P (raw R.S.P deg dx g w.ps) (flatIndex g.size i) = c
  have e1 : (permCell σ c).mass = c.mass := rfl
  rw [e1]
  split_ifs <;> rfl

lemma particleStep_perm {p : Particle (d + 2) ℝ} (hp : p ∈ w.ps) :
    particleStep R' deg dx dt (permV σ grav) (permV σ g) (permWorld σ sh w) (permP σ p) =
      (particleStep R deg dx dt grav g w p).map (Prod.map (permP σ) id) := by
  have hu : ∀ q, plasticUpdate R' dt (permP σ q) = (plasticUpdate R dt q).map (Prod.map (permP σ) id) := by
    intro q
    have := plasticity_perm (σ := σ) R.cabs R.svd R.m dt q false
    simp only [plasticUpdate]
    rw [show plasticity (R').cabs (R').svd (R').m dt (permP σ q) false = _ from this, Option.map_map, Option.map_map]
    rfl
  have hG := interpGrad_perm (hg.good (deg := deg) hp).ok (gradVel_perm (deg := deg) (dt := dt) (grav := grav)
    (sched' := sched') hg hsh hA)
  have hT := transfer_perm (deg := deg) (dt := dt) (grav := grav) (sched' := sched') hg hsh hA hp
  have hF : ∀ (M : Matrix (Fin (d + 2)) (Fin (d + 2)) ℝ), trialF dt (M.submatrix σ σ) (p.F.submatrix σ σ) = (trialF dt M p.F).submatrix σ σ := by
    intro M
    unfold trialF
    rw [submatrix_mul_perm]
    rfl
  unfold particleStep
  simp only
  rw [← hu]
  congr 1
  rw [show (permP σ p).x = permV σ p.x from rfl]
  have e : (permWorld σ sh w).ps = w.ps.map (permP σ) := rfl
  rw [show (R').S.P = R.S.P from rfl, e, hT, stencilOf_perm, hG, show (permP σ p).F = p.F.submatrix σ σ from rfl, hF,
    show (R').S.useMusl = R.S.useMusl from rfl, blend_perm]
  by_cases hm : R.S.useMusl = true
  · simp only [if_pos hm]; rfl
  · simp only [if_neg hm]; rfl

end step

/-! ### a run -/

section run
variable {d : ℕ} {R : Setup (d + 2)} {σ : Equiv.Perm (Fin (d + 2))} {sh : Plate (d + 2) → Plate (d + 2)}
  {A : Plate (d + 2) → Prop}
  {sched' : ℕ → List (Particle (d + 2) ℝ) → List (List (Particle (d + 2) ℝ))}

local notation "R'" => permSetup σ R (permSvd σ R.svd) sched'

lemma chooseGrid_axes {S : StepParams (d + 2) ℝ} (hp : S.pbc = false)
    (ps : List (Particle (d + 2) ℝ)) (box : Option (Fin (d + 2) → AxisInit ℝ)) (g g' : Axes (d + 2) ℝ) (n : ℕ) :
    chooseGrid { S with ref := S.ref.map (permV σ) } ⟨ps.map (permP σ), box.map (permV σ), g', n⟩ =
      (chooseGrid S ⟨ps, box, g, n⟩).map (Prod.map (Option.map (permV σ)) (permV σ)) := by
  have hx : ∀ a, ((ps.map (permP σ)).map fun p => p.x).map (fun x => x a) =
      (ps.map fun p => p.x).map fun x => x (σ a) := by
    intro a; simp [permP, Function.comp_def]
  have hr : ∀ a, (S.ref.map (permV σ)).map (fun r => r a) = S.ref.map fun r => r (σ a) := by
    intro a; cases S.ref <;> rfl
  simp only [chooseGrid, hp, Bool.false_eq_true, if_false]
  by_cases h0 : n = 0
  · simp only [if_pos h0, remeshInit, Option.bind_eq_bind, hr, hx]
    rw [sequenceFin_perm fun a => axisInit S.P.dx 2 (S.ref.map fun r => r a) ((ps.map fun p => p.x).map fun x => x a)]
    cases sequenceFin fun a => axisInit S.P.dx 2 (S.ref.map fun r => r a) ((ps.map fun p => p.x).map fun x => x a) with
    | none => rfl
    | some ai =>
      simp only [Option.map_some, Option.bind_some, permV_apply]
      rw [sequenceFin_perm fun a => axisInitNodes S.P.dx (ai a)]
      cases sequenceFin fun a => axisInitNodes S.P.dx (ai a) <;> rfl
  · simp only [if_neg h0]
    cases box with
    | none => rfl
    | some b =>
      simp only [Option.map_some, Option.bind_some, remeshCont, hx, permV_apply]
      rw [sequenceFin_perm fun a => axisContNodes S.P.dx (b a) ((ps.map fun p => p.x).map fun x => x a)]
      cases sequenceFin fun a => axisContNodes S.P.dx (b a) ((ps.map fun p => p.x).map fun x => x a) <;> rfl

lemma physStep_axes (hsh : PlatePerm R.ops R.S.P.useMibf σ sh A) (hR : ∀ k ps, (R.sched k ps).flatten.Perm ps)
    (hR' : ∀ k ps, (sched' k ps).flatten.Perm ps) (hdx : 0 < R.S.P.dx) (h1 : R.S.P.oneOverDx = 1 / R.S.P.dx)
    (hp : R.S.pbc = false) (hc : R.S.changePos = false) (w : World (d + 2)) (hA : ∀ p ∈ w.plates, A p) (dt : ℝ)
    (grav : Fin (d + 2) → ℝ) (t : ℝ) (n : ℕ) :
    physStep R' (permWorld σ sh w) dt (permV σ grav) t n =
      (physStep R w dt grav t n).map (Prod.map (permWorld σ sh) id) := by
  have hch : chooseGrid (R').S ⟨(permWorld σ sh w).ps, (permWorld σ sh w).box, (permWorld σ sh w).g, n⟩ = _ :=
    chooseGrid_axes (σ := σ) hp w.ps w.box w.g _ n
  cases hbg : chooseGrid R.S ⟨w.ps, w.box, w.g, n⟩ with
  | none =>
    rw [hbg] at hch
    rw [physStep_eq, physStep_eq, hch, hbg]
    rfl
  | some bg =>
    rw [hbg] at hch
    by_cases hg : GoodGrid R.S.P.dx bg.2 w.ps
    swap
    · have n1 : physStep R w dt grav t n = none := by
        cases h : physStep R w dt grav t n with
        | none => rfl
        | some r =>
          exfalso
          obtain ⟨bg', hbg', e⟩ := physStep_choose (w' := r.1) (ex := r.2) h
          rw [hbg] at hbg'
          cases hbg'
          have := physStep_goodGrid (w' := r.1) (ex := r.2) hp hdx h1 h
          rw [e] at this
          exact hg this
      have n2 : physStep R' (permWorld σ sh w) dt (permV σ grav) t n = none := by
        cases h : physStep R' (permWorld σ sh w) dt (permV σ grav) t n with
        | none => rfl
        | some r =>
          exfalso
          obtain ⟨bg', hbg', e⟩ := physStep_choose (w' := r.1) (ex := r.2) h
          rw [hch] at hbg'
          cases hbg'
          have := physStep_goodGrid (w' := r.1) (ex := r.2) (R := R') hp hdx h1 h
          rw [e] at this
          exact hg (GoodGrid.of_permute (σ := σ) this)
      rw [n1, n2]
      rfl
    have hg' : GoodGrid R.S.P.dx (permV σ bg.2) (w.ps.map (permP σ)) := hg.permute
    rw [physStep_good (deg := R.S.P.deg) (dx := R.S.P.dx) hp rfl h1 (hR n) hbg hg,
      physStep_good (R := R') (deg := R.S.P.deg) (dx := R.S.P.dx) (w := permWorld σ sh w) hp rfl h1 (hR' n) hch hg']
    have hm : (permWorld σ sh w).ps.mapM (particleStep R' R.S.P.deg R.S.P.dx dt (permV σ grav)
        (Prod.map (Option.map (permV σ)) (permV σ) bg).2 (permWorld σ sh w)) =
        (w.ps.mapM (particleStep R R.S.P.deg R.S.P.dx dt grav bg.2 w)).map (List.map (Prod.map (permP σ) id)) := by
      show (w.ps.map (permP σ)).mapM _ = _
      have : ∀ l : List (Particle (d + 2) ℝ), (∀ p ∈ l, p ∈ w.ps) →
          (l.map (permP σ)).mapM (particleStep R' R.S.P.deg R.S.P.dx dt (permV σ grav) (permV σ bg.2) (permWorld σ sh w)) =
          (l.mapM (particleStep R R.S.P.deg R.S.P.dx dt grav bg.2 w)).map (List.map (Prod.map (permP σ) id)) := by
        intro l
        induction l with
        | nil => intro _; rfl
        | cons p l ih =>
          intro hl
          rw [List.map_cons, List.mapM_cons, List.mapM_cons, particleStep_perm hg hsh hA (hl p List.mem_cons_self),
            ih fun q hq => hl q (List.mem_cons_of_mem _ hq)]
          cases particleStep R R.S.P.deg R.S.P.dx dt grav bg.2 w p with
          | none => rfl
          | some b => cases l.mapM (particleStep R R.S.P.deg R.S.P.dx dt grav bg.2 w) <;> rfl
      exact this w.ps fun _ h => h
    rw [hm]
    cases w.ps.mapM (particleStep R R.S.P.deg R.S.P.dx dt grav bg.2 w) with
    | none => rfl
    | some qs =>
      simp only [Option.map_some, Option.some.injEq, Prod.map_apply, id_eq]
      refine Prod.ext ?_ ?_
      swap
      · simp [List.any_map, Function.comp_def]
      have hoff : ∀ l, (∀ i, IsNode (permV σ bg.2) i → flatIndex (Axes.size (permV σ bg.2)) i ≠ l) →
          raw R.S.P R.S.P.deg R.S.P.dx (permV σ bg.2) (w.ps.map (permP σ)) l = 0 := fun l hl => raw_off R.S.P hg' hl
      show World.mk _ _ _ _ _ _ _ = World.mk _ _ _ _ _ _ _
      congr 1
      · rw [List.map_map, List.map_map]
        refine List.map_congr_left fun q _ => ?_
        simp only [Function.comp, positionParticle, Prod.map_fst, Bool.false_eq_true, if_false]
        rw [show (R').S.changePos = false from hc, hc, blend_perm]
        simp only [Bool.false_eq_true, if_false]
        rw [show (R').S.P = R.S.P from rfl, show (R').S.useMusl = R.S.useMusl from rfl]
        by_cases hm : R.S.useMusl = true
        · simp only [if_pos hm]; rfl
        · simp only [if_neg hm]; rfl
      · show (w.plates.map sh).map _ = (w.plates.map _).map sh
        rw [List.map_map, List.map_map]
        refine List.map_congr_left fun p hp => ?_
        exact hsh.move p (hA p hp) _ _ _
      · refine eq_permField (fun i hi => ?_) fun l hl => ?_
        · show (p2gFinish R.S.P (raw R.S.P R.S.P.deg R.S.P.dx (permV σ bg.2) (w.ps.map (permP σ))) _).mass = _
          rw [finish_perm R.S.P hg hi]
          rfl
        · show (raw R.S.P R.S.P.deg R.S.P.dx (permV σ bg.2) (w.ps.map (permP σ)) l).mass * _ = 0
          rw [hoff l hl]
          exact zero_mul _
      · have := gradVel_perm (deg := R.S.P.deg) (dt := dt) (grav := grav) (sched' := sched') hg hsh hA
        have e := eq_permField (g := bg.2) (σ := σ)
          (φ := fun l => permV σ (gradVel R.S R.S.P.deg R.S.P.dx dt grav (wallsOn R R.S.P.deg R.S.P.dx dt bg.2 w) bg.2 w.ps l))
          (φ' := gradVel (R').S R.S.P.deg R.S.P.dx dt (permV σ grav)
            (wallsOn R' R.S.P.deg R.S.P.dx dt (permV σ bg.2) (permWorld σ sh w)) (permV σ bg.2) (w.ps.map (permP σ)))
          (fun i hi => this i hi) (fun l hl => by
            unfold gradVel
            by_cases hu : R.S.useMusl = true
            · rw [if_pos (show (R').S.useMusl = true from hu)]
              refine if_neg ?_
              show ¬ (raw R.S.P R.S.P.deg R.S.P.dx (permV σ bg.2) (w.ps.map (permP σ)) l).mass * _ > 0
              rw [hoff l hl]
              exact fun h => absurd h (by rw [show (0 : Cell (d + 2) ℝ).mass = 0 from rfl, zero_mul]; exact lt_irrefl _)
            · rw [if_neg (show ¬ (R').S.useMusl = true from hu)]
              refine (eulerUpdate_off _ _ _ _ _ _ hl).trans ?_
              refine if_neg ?_
              rw [show (R').S.P = R.S.P from rfl, hoff l hl]
              exact lt_irrefl _)
        refine e.trans ?_
        funext l
        unfold permField
        split_ifs <;> rfl
      · refine eq_permField (fun i hi => ?_) fun l hl => ?_
        · show (p2gFinish R.S.P (raw R.S.P R.S.P.deg R.S.P.dx (permV σ bg.2) (w.ps.map (permP σ))) _).friction = _
          rw [finish_perm R.S.P hg hi]
          rfl
        · show (if R.S.P.useMibf = true then (raw R.S.P R.S.P.deg R.S.P.dx (permV σ bg.2) (w.ps.map (permP σ)) l).friction / _
            else (raw R.S.P R.S.P.deg R.S.P.dx (permV σ bg.2) (w.ps.map (permP σ)) l).friction) = 0
          rw [hoff l hl]
          split_ifs
          · exact zero_div _
          · rfl

lemma maxSpeed_axes (vs : List (Fin (d + 2) → ℝ)) : maxSpeed (vs.map (permV σ)) = maxSpeed vs := by
  have : maxElement (vs.map (permV σ)) = (maxElement vs).map (permV σ) := by
    cases vs with
    | nil => rfl
    | cons v vs =>
      simp only [maxElement, List.map_cons, Option.map_some, Option.some.injEq]
      induction vs generalizing v with
      | nil => rfl
      | cons u us ih =>
        rw [List.map_cons, List.foldl_cons, List.foldl_cons, permV_dot, permV_dot, ← ih]
        split_ifs <;> rfl
  rw [maxSpeed, maxSpeed, this, Option.map_map]
  congr 1
  funext v
  simp only [Function.comp, permV_dot]

/-- The general form: `sh` renumbers a wall, `A` are the walls it can renumber. -/
lemma run_axes (hsh : PlatePerm R.ops R.S.P.useMibf σ sh A) (hR : ∀ k ps, (R.sched k ps).flatten.Perm ps)
    (hR' : ∀ k ps, (sched' k ps).flatten.Perm ps) (hdx : 0 < R.S.P.dx) (h1 : R.S.P.oneOverDx = 1 / R.S.P.dx)
    (hp : R.S.pbc = false) (hc : R.S.changePos = false) (i e : Bool) (fuel : ℕ) (s : LoopState (d + 2) (World (d + 2)))
    (hA : ∀ p ∈ s.w.plates, A p) :
    runProgram R' i e fuel (s.map (permWorld σ sh) (permV σ)) = (runProgram R i e fuel s).map (permWorld σ sh) (permV σ) := by
  unfold runProgram
  rw [show (R').m = R.m from rfl, show (R').C = R.C from rfl, show (R').S.P = R.S.P from rfl]
  split_ifs with ha
  · have hf : ∀ w : World (d + 2), (fillMuI R.m R.S.P.useMibf w).plates = w.plates := by
      intro w; unfold fillMuI; split_ifs <;> rfl
    have := simulate_map (C := R.C) (ph := physics R) (ph' := physics R') (f := permWorld σ sh)
      (γ := permL σ) (Inv := fun w => ∀ p ∈ w.plates, A p)
      (fun w _ => by
        have := maxSpeed_axes (σ := σ) (w.ps.map fun p => p.v)
        rw [List.map_map] at this
        rw [← show (physics R).velocities w = w.ps.map fun p => p.v from rfl] at this
        rw [← this]
        simp only [physics, permWorld, List.map_map]
        rfl)
      (fun w dt g t n hw => physStep_axes hsh hR hR' hdx h1 hp hc w hw dt g t n)
      (fun w dt g t n w' hw h => by
        have hpl : w'.plates = w.plates.map fun p => R.ops.move p dt R.C.frameDt t := physStep_plates h
        rw [hpl]
        intro p hp
        obtain ⟨q, hq, rfl⟩ := List.mem_map.mp hp
        exact hsh.keep q (hw q hq) _ _ _)
      i R.m.elastic R.m.plastic e fuel { s with w := fillMuI R.m R.S.P.useMibf s.w } (by rw [hf]; exact hA)
    have e1 : ∀ w : World (d + 2), fillMuI R.m R.S.P.useMibf (permWorld σ sh w) = permWorld σ sh (fillMuI R.m R.S.P.useMibf w) := by
      intro w
      unfold fillMuI permWorld
      by_cases hm : R.S.P.useMibf = true
      · simp only [if_pos hm, List.map_map]; rfl
      · simp only [if_neg hm]
    simp only [LoopState.map, e1] at this ⊢
    exact this
  · rfl

end run

/-- **C104** Without walls (terrain objects are allowed) the axes may be renumbered by any permutation `σ`: the run of the
renumbered problem ends the same way at the same times and writes the renumbered files. The decomposition and the
distribution to threads of the renumbered run are arbitrary. -/
theorem C104_objects {d : ℕ} {R : Setup (d + 2)} (σ : Equiv.Perm (Fin (d + 2)))
    {svd' : Matrix (Fin (d + 2)) (Fin (d + 2)) ℝ → Svd (d + 2)} (hsvd : BothSvd (permSvd σ R.svd) svd')
    {sched' : ℕ → List (Particle (d + 2) ℝ) → List (List (Particle (d + 2) ℝ))}
    (hR : ∀ k ps, (R.sched k ps).flatten.Perm ps) (hR' : ∀ k ps, (sched' k ps).flatten.Perm ps)
    (hdx : 0 < R.S.P.dx) (h1 : R.S.P.oneOverDx = 1 / R.S.P.dx) (hp : R.S.pbc = false) (hc : R.S.changePos = false)
    (i e : Bool) (fuel : ℕ) (s : LoopState (d + 2) (World (d + 2))) (hw : s.w.plates = []) :
    runProgram (permSetup σ R svd' sched') i e fuel (s.map (permWorld σ id) (permV σ)) =
      (runProgram R i e fuel s).map (permWorld σ id) (permV σ) := by
  have hr := C101_run (R := permSetup σ R (permSvd σ R.svd) sched') (svd' := svd') hsvd i e fuel
    (s.map (permWorld σ id) (permV σ))
  refine hr.trans (run_axes (A := fun _ => False) ?_ hR hR' hdx h1 hp hc i e fuel s (by rw [hw]; simp))
  constructor <;> intro p h <;> exact h.elim

lemma platePerm2 (mibf : Bool) : PlatePerm plateOps2 mibf (Equiv.swap 0 1) (swapPlate (d := 0)) fun _ => True := by
  constructor
  · rintro ⟨pos, type, bc, fr, lo, up, v, vo, vm, lf⟩ h X
    cases type <;> simp_all [plateOps2, Plate.inside2, swapPlate, permV]
  · rintro ⟨pos, type, bc, fr, lo, up, v, vo, vm, lf⟩ h f hf r
    cases type <;> cases bc <;> simp_all [plateOps2, plateRel2, swapPlate, permV] <;> (try split_ifs) <;>
      (funext a; fin_cases a <;> simp)
  · rintro ⟨pos, type, bc, fr, lo, up, v, vo, vm, lf⟩ h
    rfl
  · rintro ⟨pos, type, bc, fr, lo, up, v, vo, vm, lf⟩ h
    rfl
  · rintro ⟨pos, type, bc, fr, lo, up, v, vo, vm, lf⟩ h dt f t
    cases type <;> simp_all [plateOps2, Plate.move2, swapPlate, permV, Plate.factor] <;>
      (funext a; fin_cases a <;> simp)
  · rintro ⟨pos, type, bc, fr, lo, up, v, vo, vm, lf⟩ h dt f t
    cases type <;> simp_all [plateOps2, Plate.move2]

lemma platePerm3 (mibf : Bool) : PlatePerm plateOps3 mibf (Equiv.swap 0 1) (swapPlate (d := 1)) fun p =>
    (p.type = .front ∨ p.type = .back) → p.bc = .noSlip ∨ (p.friction = 0 ∧ mibf = false) := by
  have e2 : (Equiv.swap (0 : Fin 3) 1) 2 = 2 := by decide
  constructor
  · rintro ⟨pos, type, bc, fr, lo, up, v, vo, vm, lf⟩ h X
    cases type <;> simp_all [plateOps3, Plate.inside3, swapPlate, permV]
  · rintro ⟨pos, type, bc, fr, lo, up, v, vo, vm, lf⟩ h f hf r
    cases type <;> cases bc <;> simp_all [plateOps3, plateRel3, swapPlate, permV, slide3] <;> (try split_ifs) <;>
      (funext a; fin_cases a <;> simp [e2])
  · rintro ⟨pos, type, bc, fr, lo, up, v, vo, vm, lf⟩ h
    rfl
  · rintro ⟨pos, type, bc, fr, lo, up, v, vo, vm, lf⟩ h
    rfl
  · rintro ⟨pos, type, bc, fr, lo, up, v, vo, vm, lf⟩ h dt f t
    cases type <;> simp_all [plateOps3, Plate.move3, swapPlate, permV, Plate.factor] <;>
      (funext a; fin_cases a <;> simp [e2])
  · rintro ⟨pos, type, bc, fr, lo, up, v, vo, vm, lf⟩ h dt f t
    cases type <;> simp_all [plateOps3, Plate.move3]

/-- **C104** (2D) The two axes may be exchanged in a problem with any walls and objects: what was left is bottom, what was
right is top, and everything in every file has its two components exchanged. -/
theorem C104_swap2 {R : Setup 2} (hops : R.ops = plateOps2)
    {svd' : Matrix (Fin 2) (Fin 2) ℝ → Svd 2} (hsvd : BothSvd (permSvd (Equiv.swap 0 1) R.svd) svd')
    {sched' : ℕ → List (Particle 2 ℝ) → List (List (Particle 2 ℝ))}
    (hR : ∀ k ps, (R.sched k ps).flatten.Perm ps) (hR' : ∀ k ps, (sched' k ps).flatten.Perm ps)
    (hdx : 0 < R.S.P.dx) (h1 : R.S.P.oneOverDx = 1 / R.S.P.dx) (hp : R.S.pbc = false) (hc : R.S.changePos = false)
    (i e : Bool) (fuel : ℕ) (s : LoopState 2 (World 2)) :
    runProgram (d := 0) (permSetup (Equiv.swap 0 1) R svd' sched') i e fuel
        (s.map (permWorld (Equiv.swap 0 1) (swapPlate (d := 0))) (permV (Equiv.swap 0 1))) =
      (runProgram (d := 0) R i e fuel s).map (permWorld (Equiv.swap 0 1) (swapPlate (d := 0))) (permV (Equiv.swap 0 1)) := by
  have hr := C101_run (d := 0) (R := permSetup (Equiv.swap 0 1) R (permSvd (Equiv.swap 0 1) R.svd) sched') (svd' := svd') hsvd i e fuel
    (s.map (permWorld (Equiv.swap 0 1) (swapPlate (d := 0))) (permV (Equiv.swap 0 1)))
  exact hr.trans (run_axes (d := 0) (A := fun _ => True) (by rw [hops]; exact platePerm2 _) hR hR' hdx h1 hp hc i e fuel s
    fun _ _ => trivial)

/-- **C104** (3D) The first two axes may be exchanged in a problem with any objects and walls, except front and back walls
with friction (see `C104_front_false`). -/
theorem C104_swap3 {R : Setup 3} (hops : R.ops = plateOps3)
    {svd' : Matrix (Fin 3) (Fin 3) ℝ → Svd 3} (hsvd : BothSvd (permSvd (Equiv.swap 0 1) R.svd) svd')
    {sched' : ℕ → List (Particle 3 ℝ) → List (List (Particle 3 ℝ))}
    (hR : ∀ k ps, (R.sched k ps).flatten.Perm ps) (hR' : ∀ k ps, (sched' k ps).flatten.Perm ps)
    (hdx : 0 < R.S.P.dx) (h1 : R.S.P.oneOverDx = 1 / R.S.P.dx) (hp : R.S.pbc = false) (hc : R.S.changePos = false)
    (i e : Bool) (fuel : ℕ) (s : LoopState 3 (World 3))
    (hw : ∀ p ∈ s.w.plates, p.type = .front ∨ p.type = .back → p.bc = .noSlip ∨ (p.friction = 0 ∧ R.S.P.useMibf = false)) :
    runProgram (d := 1) (permSetup (Equiv.swap 0 1) R svd' sched') i e fuel
        (s.map (permWorld (Equiv.swap 0 1) (swapPlate (d := 1))) (permV (Equiv.swap 0 1))) =
      (runProgram (d := 1) R i e fuel s).map (permWorld (Equiv.swap 0 1) (swapPlate (d := 1))) (permV (Equiv.swap 0 1)) := by
  have hr := C101_run (d := 1) (R := permSetup (Equiv.swap 0 1) R (permSvd (Equiv.swap 0 1) R.svd) sched') (svd' := svd') hsvd i e fuel
    (s.map (permWorld (Equiv.swap 0 1) (swapPlate (d := 1))) (permV (Equiv.swap 0 1)))
  exact hr.trans (run_axes (d := 1) (by rw [hops]; exact platePerm3 _) hR hR' hdx h1 hp hc i e fuel s hw)

namespace RunEx

/-- The same library meets the hypothesis on the decompositions, apart from singular matrices. -/
lemma bothSvd_perm {d : ℕ} (σ : Equiv.Perm (Fin d)) {svd : Matrix (Fin d) (Fin d) ℝ → Svd d} (h : ∀ F, IsSvd F (svd F)) :
    BothSvd (permSvd σ svd) fun F => if F.det = 0 then permSvd σ svd F else svd F := by
  intro F
  refine ⟨fun hF => ⟨?_, by simpa only [if_neg hF] using h F⟩, fun hF => if_pos hF⟩
  have := permSvdOf_isSvd (σ := σ) (h (F.submatrix σ.symm σ.symm))
  have e : (F.submatrix σ.symm σ.symm).submatrix σ σ = F := by ext a b; simp
  rw [e] at this
  exact this

/-- A wall on the left that moves to the right and has friction. -/
noncomputable def pusher : Plate 2 := ⟨-1, .left, .slipFree, 1 / 2, -5, 5, ![1, 0], ![1, 0], 1, 0⟩

/-- Two particles between that wall and gravity: exchanging the axes gives a wall below that moves up and gravity to the
left. -/
example (fuel : ℕ) :
    let σ : Equiv.Perm (Fin 2) := Equiv.swap 0 1
    let R := permSetup σ (setup true 1 .vm) (fun F => if F.det = 0 then permSvd σ someSvd F else someSvd F) fun _ ps => ps.map fun p => [p]
    runProgram (d := 0) R true false fuel ((start pair ![0, -10] [pusher]).map (permWorld σ (swapPlate (d := 0))) (permV σ)) =
      (runProgram (d := 0) (setup true 1 .vm) true false fuel (start pair ![0, -10] [pusher])).map
        (permWorld σ (swapPlate (d := 0))) (permV σ) ∧
    ((start pair ![0, -10] [pusher]).map (permWorld σ (swapPlate (d := 0))) (permV σ)).gravity = ![-10, 0] ∧
    (swapPlate (d := 0) pusher).type = .bottom ∧ (swapPlate (d := 0) pusher).vel = ![0, 1] := by
  refine ⟨C104_swap2 rfl (bothSvd_perm _ someSvd_isSvd) (fun _ _ => by simp [setup]) (fun _ ps => ?_) (by simp [setup, mkTransferParams])
    (by simp [setup, mkTransferParams]) rfl rfl _ _ _ _, ?_, rfl, ?_⟩
  · have : (ps.map fun p => [p]).flatten = ps := by
      induction ps with
      | nil => rfl
      | cons p ps ih => simp [ih]
    rw [this]
  · funext a; fin_cases a <;> simp [LoopState.map, start, permV]
  · funext a; fin_cases a <;> simp [swapPlate, pusher, permV]

/-- The same in three dimensions, with a ramp. -/
noncomputable def setup3 : Setup 3 where
  C := ⟨1, true, true, false, 0, 1 / 1000, 1, 1 / 2, 1 / 2, 1, 1, 1⟩
  S := ⟨mkTransferParams .three 1 (-1) true 3 1, false, false, false, 1, some ![0, 0, 1]⟩
  m := Ex.mat .mcc
  objs := [objectRamp .slipStick (1 / 2)]
  ops := plateOps3
  cabs := abs
  svd := someSvd
  sched := fun _ ps => [ps]

/-- Any renumbering of three axes, for instance the cyclic one. -/
example (fuel : ℕ) (s : LoopState 3 (World 3)) (hw : s.w.plates = []) :
    let σ : Equiv.Perm (Fin 3) := finRotate 3
    let R := permSetup σ setup3 (fun F => if F.det = 0 then permSvd σ someSvd F else someSvd F) fun _ ps => [ps]
    runProgram (d := 1) R true false fuel (s.map (permWorld σ id) (permV σ)) =
      (runProgram (d := 1) setup3 true false fuel s).map (permWorld σ id) (permV σ) ∧ R.S.ref = some ![0, 1, 0] := by
  refine ⟨C104_objects (d := 1) _ (bothSvd_perm _ someSvd_isSvd) (fun _ _ => by simp [setup3]) (fun _ _ => by simp)
    (by simp [setup3, mkTransferParams]) (by simp [setup3, mkTransferParams]) rfl rfl _ _ _ _ hw, ?_⟩
  simp only [permSetup, setup3, Option.map_some, Option.some.injEq]
  have r0 : finRotate 3 0 = 1 := by decide
  have r1 : finRotate 3 1 = 2 := by decide
  have r2 : finRotate 3 2 = 0 := by decide
  funext a; fin_cases a <;> simp [permV, r0, r1, r2]

/-- A wall below with friction and a wall behind where nothing slips. -/
example (fuel : ℕ) (s : LoopState 3 (World 3))
    (hw : s.w.plates = [⟨0, .bottom, .slipStick, 1, -5, 5, 0, 0, 1, 0⟩, ⟨0, .back, .noSlip, 1, 0, 0, 0, 0, 1, 0⟩]) :
    let σ : Equiv.Perm (Fin 3) := Equiv.swap 0 1
    let R := permSetup σ setup3 (fun F => if F.det = 0 then permSvd σ someSvd F else someSvd F) fun _ ps => [ps]
    runProgram (d := 1) R true false fuel (s.map (permWorld σ (swapPlate (d := 1))) (permV σ)) =
      (runProgram (d := 1) setup3 true false fuel s).map (permWorld σ (swapPlate (d := 1))) (permV σ) := by
  refine C104_swap3 rfl (bothSvd_perm _ someSvd_isSvd) (fun _ _ => by simp [setup3]) (fun _ _ => by simp)
    (by simp [setup3, mkTransferParams]) (by simp [setup3, mkTransferParams]) rfl rfl _ _ _ _ ?_
  rw [hw]
  intro p hp h
  simp only [List.mem_cons, List.not_mem_nil, or_false] at hp
  rcases hp with rfl | rfl
  · rcases h with h | h <;> cases h
  · exact .inl rfl

/-- A sticking wall in front with friction coefficient one. -/
noncomputable def glass : Plate 3 := ⟨0, .front, .slipStick, 1, 0, 0, 0, 0, 1, 0⟩

end RunEx

open RunEx in
/-- **C104** The hypothesis on front and back walls is needed: friction there treats directions 0 and 1 differently, because
the second component is computed with the first one already reduced (boundary_collision.cpp:150-163). A node that moves with
velocity `(3, 4, 1)` into the wall gets other speeds after the axes are exchanged. -/
theorem C104_front_false : glass.type = .front ∧
    boundaryCollision plateOps3 false (fun _ => 0) 0 [] [swapPlate (d := 1) glass] 0 (permV (Equiv.swap 0 1) 0)
        (permV (Equiv.swap 0 1) ![3, 4, 1]) ≠
      permV (Equiv.swap 0 1) (boundaryCollision plateOps3 false (fun _ => 0) 0 [] [glass] 0 0 ![3, 4, 1]) := by
  refine ⟨rfl, fun h => ?_⟩
  have h0 := congrFun h 0
  have e2 : (Equiv.swap (0 : Fin 3) 1) 2 = 2 := by decide
  simp [boundaryCollision, collideObjects, collidePlates, plateOps3, Plate.inside3, glass, swapPlate, plateRel3, permV, e2,
    slide3, wallFriction] at h0
  have q : ∀ {x y : ℝ}, 0 ≤ y → x = y ^ 2 → √x = y := fun {x y} hy hx => by rw [hx]; exact Real.sqrt_sq hy
  have a1 : √(4 * 4 + 3 * 3 : ℝ) = 5 := q (by norm_num) (by norm_num)
  have a2 : √(3 * 3 + 4 * 4 : ℝ) = 5 := q (by norm_num) (by norm_num)
  have a3 : √(1 + 3 * 3 / (4 * 4) : ℝ) = 5 / 4 := q (by norm_num) (by norm_num)
  have a4 : √(1 + 4 * 4 / (3 * 3) : ℝ) = 5 / 3 := q (by norm_num) (by norm_num)
  have g3 : sgn (3 : ℝ) = 1 := by norm_num [sgn]
  have g4 : sgn (4 : ℝ) = 1 := by norm_num [sgn]
  rw [if_neg (by norm_num), if_neg (by norm_num), a1, a2, a3, a4, g3, g4] at h0
  have h5 : √(1 + 1 * (5 - 1) / (5 / 3) * (1 * (5 - 1) / (5 / 3)) / (4 * 4) : ℝ) = 5 / 4 := by
    have hpos : 0 < √(1 + 1 * (5 - 1) / (5 / 3) * (1 * (5 - 1) / (5 / 3)) / (4 * 4) : ℝ) := Real.sqrt_pos.mpr (by norm_num)
    simp only at h0
    rw [eq_div_iff hpos.ne'] at h0
    linarith
  have h6 := Real.sq_sqrt (show (0 : ℝ) ≤ 1 + 1 * (5 - 1) / (5 / 3) * (1 * (5 - 1) / (5 / 3)) / (4 * 4) by norm_num)
  rw [h5] at h6
  norm_num at h6

end Verif.Props
