import Verif.Lemmas.Local
import Verif.Lemmas.Simulate
import Verif.Props.Shift
import Verif.Props.Run

set_option linter.unusedSimpArgs false
set_option linter.unusedVariables false
set_option linter.unusedSectionVars false

/-!
# Renumbering the axes

The transfers, the walls and the constitutive update on a renumbered system.
-/

namespace Verif
open Matrix

/-- A vector (or grid, box, index tuple) in the renumbered system: component `a` is the old component `σ a`. -/
def permV {d : ℕ} {α : Type*} (σ : Equiv.Perm (Fin d)) (v : Fin d → α) : Fin d → α := fun a => v (σ a)

/-- A particle in the renumbered system. -/
def permP {d : ℕ} (σ : Equiv.Perm (Fin d)) (p : Particle d ℝ) : Particle d ℝ :=
  { p with
    x := permV σ p.x
    v := permV σ p.v
    pic := permV σ p.pic
    flip := permV σ p.flip
    F := p.F.submatrix σ σ
    Bmat := p.Bmat.submatrix σ σ
    tau := p.tau.submatrix σ σ }

section
variable {d : ℕ} {σ : Equiv.Perm (Fin d)}

@[simp] lemma permV_apply {α : Type*} (v : Fin d → α) (a : Fin d) : permV σ v a = v (σ a) := rfl
@[simp] lemma permV_zero : permV σ (0 : Fin d → ℝ) = 0 := rfl
lemma permV_add (u v : Fin d → ℝ) : permV σ (u + v) = permV σ u + permV σ v := rfl
lemma permV_sub (u v : Fin d → ℝ) : permV σ (u - v) = permV σ u - permV σ v := rfl
lemma permV_smul (c : ℝ) (v : Fin d → ℝ) : permV σ (c • v) = c • permV σ v := rfl
lemma permV_symm {α : Type*} (v : Fin d → α) : permV σ (permV σ.symm v) = v := by funext a; simp
lemma permV_symm' {α : Type*} (v : Fin d → α) : permV σ.symm (permV σ v) = v := by funext a; simp

lemma permV_dot (u v : Fin d → ℝ) : permV σ u ⬝ᵥ permV σ v = u ⬝ᵥ v :=
  Equiv.sum_comp σ fun a => u a * v a

lemma permV_mulVec (M : Matrix (Fin d) (Fin d) ℝ) (v : Fin d → ℝ) :
    M.submatrix σ σ *ᵥ permV σ v = permV σ (M *ᵥ v) := by
  funext a
  exact Equiv.sum_comp σ fun b => M (σ a) b * v b

lemma submatrix_mul_perm {M N : Matrix (Fin d) (Fin d) ℝ} :
    M.submatrix σ σ * N.submatrix σ σ = (M * N).submatrix σ σ := by
  rw [Matrix.submatrix_mul_equiv]

lemma vecMulVec_perm (u v : Fin d → ℝ) : vecMulVec (permV σ u) (permV σ v) = (vecMulVec u v).submatrix σ σ := rfl

/-- `permV` as a linear map. -/
def permL (σ : Equiv.Perm (Fin d)) : (Fin d → ℝ) →ₗ[ℝ] (Fin d → ℝ) where
  toFun := permV σ
  map_add' _ _ := rfl
  map_smul' _ _ := rfl

@[simp] lemma permL_apply (v : Fin d → ℝ) : permL σ v = permV σ v := rfl

lemma permV_sum {ι : Type*} (s : Finset ι) (f : ι → Fin d → ℝ) : permV σ (∑ i ∈ s, f i) = ∑ i ∈ s, permV σ (f i) :=
  map_sum (permL σ) f s

/-- Sums over the stencil may be taken in the renumbered order. -/
lemma sum_perm {M : Type*} [AddCommMonoid M] (f : (Fin d → Fin 4) → M) : ∑ c, f (permV σ c) = ∑ c, f c :=
  Equiv.sum_comp (Equiv.arrowCongr σ.symm (Equiv.refl (Fin 4))) f

/-! ### grids and stencils -/

lemma sequenceFin_perm {α : Type*} (f : Fin d → Option α) :
    sequenceFin (fun a => f (σ a)) = (sequenceFin f).map (permV σ) := by
  cases h : sequenceFin f with
  | some r => exact sequenceFin_some fun a => of_sequenceFin_some h (σ a)
  | none =>
    cases h' : sequenceFin fun a => f (σ a) with
    | none => rfl
    | some r =>
      have : sequenceFin f = some (permV σ.symm r) := sequenceFin_some fun a => by
        have := of_sequenceFin_some h' (σ.symm a)
        simpa using this
      rw [h] at this
      cases this

lemma isNode_perm {g : Axes d ℝ} {i : Fin d → ℕ} (hi : IsNode g i) : IsNode (permV σ g) (permV σ i) := fun a => hi (σ a)

lemma nodeAt_perm (g : Axes d ℝ) (i : Fin d → ℕ) : nodeAt (permV σ g) (permV σ i) = permV σ (nodeAt g i) := rfl

lemma size_perm (g : Axes d ℝ) : Axes.size (permV σ g) = permV σ g.size := rfl

/-- The stencil of the renumbered system. -/
def permStencil (σ : Equiv.Perm (Fin d)) (s : Stencil d ℝ) : Stencil d ℝ :=
  ⟨permV σ s.base, permV σ s.xi, permV σ s.W, permV σ s.G⟩

lemma mkStencil_perm (deg : Deg) (o : ℝ) (g : Axes d ℝ) (b : Fin d → ℕ) (x : Fin d → ℝ) :
    mkStencil deg o (permV σ g) (permV σ b) (permV σ x) = (mkStencil deg o g b x).map (permStencil σ) := by
  unfold mkStencil
  by_cases h : ∀ a, b a + 3 < (g a).length
  · have h' : ∀ a, permV σ b a + 3 < (permV σ g a).length := fun a => h (σ a)
    rw [dif_pos h, dif_pos h']
    rfl
  · have h' : ¬ ∀ a, permV σ b a + 3 < (permV σ g a).length := fun h' => h fun a => by simpa using h' (σ.symm a)
    rw [dif_neg h, dif_neg h']
    rfl

lemma stencilP2G_perm (deg : Deg) (o : ℝ) (g : Axes d ℝ) (x : Fin d → ℝ) :
    stencilP2G deg o (permV σ g) (permV σ x) = (stencilP2G deg o g x).map (permStencil σ) := by
  unfold stencilP2G
  rw [show baseP2G o (permV σ g) (permV σ x) = fun a => baseP2G o g x (σ a) from rfl, sequenceFin_perm]
  cases sequenceFin (baseP2G o g x) with
  | none => rfl
  | some b => exact mkStencil_perm deg o g b x

lemma stencilOf_perm (deg : Deg) (dx : ℝ) (g : Axes d ℝ) (x : Fin d → ℝ) :
    stencilOf deg dx (permV σ g) (permV σ x) = permStencil σ (stencilOf deg dx g x) := by
  unfold stencilOf
  rw [stencilP2G_perm]
  cases stencilP2G deg (1 / dx) g x <;> rfl

lemma GoodGrid.permute {dx : ℝ} {g : Axes d ℝ} {ps : List (Particle d ℝ)} (h : GoodGrid dx g ps) :
    GoodGrid dx (permV σ g) (ps.map (permP σ)) where
  dx_pos := h.dx_pos
  uniform a := h.uniform (σ a)
  inside p hp a := by
    obtain ⟨q, hq, rfl⟩ := List.mem_map.mp hp
    exact h.inside q hq (σ a)

lemma GoodGrid.of_permute {dx : ℝ} {g : Axes d ℝ} {ps : List (Particle d ℝ)}
    (h : GoodGrid dx (permV σ g) (ps.map (permP σ))) : GoodGrid dx g ps where
  dx_pos := h.dx_pos
  uniform a := by simpa using h.uniform (σ.symm a)
  inside p hp a := by
    have := h.inside _ (List.mem_map_of_mem hp) (σ.symm a)
    simpa [permP] using this

lemma shape_perm (deg : Deg) (dx : ℝ) (X x : Fin d → ℝ) : shape deg dx (permV σ X) (permV σ x) = shape deg dx X x :=
  Equiv.prod_comp σ fun a => N deg ((x a - X a) / dx)

lemma shapeGrad_perm (deg : Deg) (dx : ℝ) (X x : Fin d → ℝ) :
    shapeGrad deg dx (permV σ X) (permV σ x) = permV σ (shapeGrad deg dx X x) := by
  funext b
  refine Eq.trans (Finset.prod_congr rfl fun a _ => ?_)
    (Equiv.prod_comp σ fun a => if a = σ b then dNdu deg ((x a - X a) / dx) / dx else N deg ((x a - X a) / dx))
  simp only [σ.injective.eq_iff, permV_apply]

lemma weight_perm (s : Stencil d ℝ) (c : Fin d → Fin 4) : (permStencil σ s).weight (permV σ c) = s.weight c :=
  Equiv.prod_comp σ fun a => s.W a (c a)

lemma weightGrad_perm (s : Stencil d ℝ) (c : Fin d → Fin 4) :
    (permStencil σ s).weightGrad (permV σ c) = permV σ (s.weightGrad c) := by
  funext b
  refine Eq.trans (Finset.prod_congr rfl fun a _ => ?_) (Equiv.prod_comp σ fun a => if a = σ b then s.G a (c a) else s.W a (c a))
  simp only [σ.injective.eq_iff, permV_apply, permStencil]

/-! ### grid fields -/

/-- A vector field on the nodes and the field of the renumbered system. -/
def FieldRel (σ : Equiv.Perm (Fin d)) (n : Fin d → ℕ) (v v' : ℕ → Fin d → ℝ) : Prop :=
  ∀ i, (∀ a, i a < n a) → v' (flatIndex (permV σ n) (permV σ i)) = permV σ (v (flatIndex n i))

lemma interpV_perm {g : Axes d ℝ} {x : Fin d → ℝ} {s : Stencil d ℝ} (hs : StencilOK g.size x s) {v v' : ℕ → Fin d → ℝ}
    (h : FieldRel σ g.size v v') :
    interpV (Axes.size (permV σ g)) v' (permStencil σ s) = permV σ (interpV g.size v s) := by
  rw [interpV_eq, interpV_eq, permV_sum, ← sum_perm (σ := σ)]
  refine Finset.sum_congr rfl fun c _ => ?_
  rw [weight_perm, permV_smul]
  congr 1
  exact h _ (hs.node_lt c)

lemma submatrix_sum {ι : Type*} (s : Finset ι) (f : ι → Matrix (Fin d) (Fin d) ℝ) :
    (∑ i ∈ s, f i).submatrix σ σ = ∑ i ∈ s, (f i).submatrix σ σ := by
  ext a b
  simp [Matrix.sum_apply]

lemma interpGrad_perm {g : Axes d ℝ} {x : Fin d → ℝ} {s : Stencil d ℝ} (hs : StencilOK g.size x s)
    {v v' : ℕ → Fin d → ℝ} (h : FieldRel σ g.size v v') :
    interpGrad (Axes.size (permV σ g)) v' (permStencil σ s) = (interpGrad g.size v s).submatrix σ σ := by
  rw [interpGrad_eq, interpGrad_eq, submatrix_sum, ← sum_perm (σ := σ)]
  refine Finset.sum_congr rfl fun c _ => ?_
  rw [weightGrad_perm, ← vecMulVec_perm]
  congr 1
  exact h _ (hs.node_lt c)

lemma interpB_perm {g : Axes d ℝ} {x : Fin d → ℝ} {s : Stencil d ℝ} (hs : StencilOK g.size x s)
    {v v' : ℕ → Fin d → ℝ} (h : FieldRel σ g.size v v') :
    interpB (Axes.size (permV σ g)) v' (permStencil σ s) (permV σ x) = (interpB g.size v s x).submatrix σ σ := by
  rw [interpB_eq, interpB_eq, submatrix_sum, ← sum_perm (σ := σ)]
  refine Finset.sum_congr rfl fun c _ => ?_
  rw [weight_perm, Matrix.submatrix_smul, Pi.smul_apply, Pi.smul_apply, ← vecMulVec_perm]
  congr 2
  exact h _ (hs.node_lt c)

/-- The node data of the renumbered system. -/
def permCell (σ : Equiv.Perm (Fin d)) : Cell d ℝ →+ Cell d ℝ where
  toFun c := ⟨c.mass, permV σ c.v, permV σ c.force, c.friction⟩
  map_zero' := rfl
  map_add' _ _ := rfl

lemma nodeContribution_perm (deg : Deg) (dx : ℝ) (P : TransferParams ℝ) (p : Particle d ℝ) (X : Fin d → ℝ) :
    nodeContribution deg dx P (permP σ p) (permV σ X) = permCell σ (nodeContribution deg dx P p X) := by
  have h1 : (permP σ p).x = permV σ p.x := rfl
  have h2 : (permP σ p).Bmat = p.Bmat.submatrix σ σ := rfl
  have h3 : (permP σ p).tau = p.tau.submatrix σ σ := rfl
  have h4 : (permP σ p).v = permV σ p.v := rfl
  have h5 : (permP σ p).muI = p.muI := rfl
  simp only [nodeContribution, h1, h2, h3, h4, h5, shape_perm, shapeGrad_perm, permV_mulVec, ← permV_sub]
  by_cases h : P.flipRatio < 0
  · simp only [if_pos h]; rfl
  · simp only [if_neg h]; rfl

variable {deg : Deg} {dx : ℝ} {g : Axes d ℝ} {ps : List (Particle d ℝ)}

lemma raw_perm_axes (P : TransferParams ℝ) (h : GoodGrid dx g ps) {i : Fin d → ℕ} (hi : IsNode g i) :
    raw P deg dx (permV σ g) (ps.map (permP σ)) (flatIndex (Axes.size (permV σ g)) (permV σ i)) =
      permCell σ (raw P deg dx g ps (flatIndex g.size i)) := by
  rw [raw_node h hi, raw_node h.permute (isNode_perm hi), map_list_sum, List.map_map, List.map_map]
  congr 1
  refine List.map_congr_left fun p _ => ?_
  simp only [Function.comp, nodeAt_perm, nodeContribution_perm]
  rw [show (permP σ p).x = permV σ p.x from rfl, shape_perm]
  split_ifs
  · rfl
  · rw [map_zero]

lemma finish_perm (P : TransferParams ℝ) (h : GoodGrid dx g ps) {i : Fin d → ℕ} (hi : IsNode g i) :
    p2gFinish P (raw P deg dx (permV σ g) (ps.map (permP σ))) (flatIndex (Axes.size (permV σ g)) (permV σ i)) =
      permCell σ (p2gFinish P (raw P deg dx g ps) (flatIndex g.size i)) := by
  simp only [p2gFinish, raw_perm_axes P h hi]
  generalize raw P deg dx g ps (flatIndex g.size i) = c
  have h1 : (permCell σ c).mass = c.mass := rfl
  have h2 : (permCell σ c).v = permV σ c.v := rfl
  rw [h1, h2]
  by_cases hm : c.mass > 0
  · simp only [if_pos hm]; rfl
  · simp only [if_neg hm]; rfl

/-- Nothing is stored outside the grid. -/
lemma raw_off (P : TransferParams ℝ) (h : GoodGrid dx g ps) {l : ℕ} (hl : ∀ i, IsNode g i → flatIndex g.size i ≠ l) :
    raw P deg dx g ps l = 0 := by
  unfold raw
  refine List.sum_eq_zero fun c hc => ?_
  obtain ⟨p, hp, rfl⟩ := List.mem_map.mp hc
  refine Finset.sum_eq_zero fun c _ => if_neg fun hc => ?_
  exact hl _ ((h.good hp).ok.node_lt c) hc.2

lemma eulerUpdate_off (P : TransferParams ℝ) (dt : ℝ) (grav : Fin d → ℝ)
    (bc : ℕ → (Fin d → ℝ) → (Fin d → ℝ) → (Fin d → ℝ)) (g : Axes d ℝ) (arr : GridArr d ℝ) {l : ℕ}
    (hl : ∀ i, IsNode g i → flatIndex g.size i ≠ l) : (eulerUpdate P dt grav bc g arr).v l = (arr l).v := by
  unfold eulerUpdate
  have : ∀ L : List (Fin d → ℕ), (∀ i ∈ L, IsNode g i) → ∀ e : EulerArr d ℝ,
      (L.foldl (fun e i => eulerNode P dt grav bc arr (flatIndex g.size i) (nodePosOf g i) e) e).v l = e.v l := by
    intro L
    induction L with
    | nil => intro _ e; rfl
    | cons i L ih =>
      intro hL e
      rw [List.foldl_cons, ih fun j hj => hL j (List.mem_cons_of_mem _ hj)]
      have hne := hl i (hL i List.mem_cons_self)
      unfold eulerNode
      by_cases hm : (arr (flatIndex g.size i)).mass > 0
      · simp only [if_pos hm]
        exact Function.update_of_ne hne.symm _ _
      · simp only [if_neg hm]
  exact this _ (fun i hi => mem_allNodes.mp hi) _

/-! ### walls -/

lemma vnorm_perm (v : Fin d → ℝ) : vnorm (permV σ v) = vnorm v := by rw [vnorm, vnorm, permV_dot]

lemma normalized_perm (v : Fin d → ℝ) : normalized (permV σ v) = permV σ (normalized v) := by
  unfold normalized
  rw [permV_dot]
  split_ifs <;> rfl

lemma objectRel_perm (bc : BC) (fric : ℝ) (n v : Fin d → ℝ) :
    objectRel bc fric (permV σ n) (permV σ v) = permV σ (objectRel bc fric n v) := by
  have h : ∀ c : ℝ, permV σ v - c • permV σ n = permV σ (v - c • n) := fun _ => rfl
  cases bc
  · rfl
  · simp only [objectRel, permV_dot, h, vnorm_perm, normalized_perm]
    split_ifs <;> rfl
  · simp only [objectRel, permV_dot, h, vnorm_perm, normalized_perm]
    split_ifs <;> rfl

/-- An object in the renumbered system. -/
def permObj (σ : Equiv.Perm (Fin d)) (o : GenObject d) : GenObject d :=
  { o with
    inside := fun X => o.inside (permV σ.symm X)
    normal := fun X => permV σ (o.normal (permV σ.symm X)) }

lemma collideObjects_perm (fr : ℝ → ℝ) (X : Fin d → ℝ) (objs : List (GenObject d)) (v : Fin d → ℝ) :
    collideObjects fr (permV σ X) (objs.map (permObj σ)) (permV σ v) = permV σ (collideObjects fr X objs v) := by
  unfold collideObjects
  induction objs generalizing v with
  | nil => rfl
  | cons o os ih =>
    rw [List.map_cons, List.foldl_cons, List.foldl_cons, ← ih]
    congr 1
    by_cases ho : o.inside X
    · rw [if_pos ho, if_pos (show (permObj σ o).inside (permV σ X) from by simpa only [permObj, permV_symm'] using ho)]
      simp only [permObj, permV_symm', objectRel_perm]
    · rw [if_neg ho, if_neg (show ¬ (permObj σ o).inside (permV σ X) from by simpa only [permObj, permV_symm'] using ho)]

end
end Verif
