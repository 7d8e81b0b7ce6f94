import Verif.Lemmas.GridFile
import Verif.Lemmas.Simulate

set_option linter.unusedSectionVars false
set_option linter.unusedSimpArgs false
set_option linter.unusedVariables false

/-!
# What a particle feels: only the grid nodes around it, wherever the grid begins and ends
-/

namespace Verif
open Matrix Props

section stencil
variable {K : Type*} [Field K] [LinearOrder K] [IsStrictOrderedRing K] [FloorRing K] {d : ℕ}
variable {deg : Deg} {dx : K} {g g' : Axes d K}

/-- The two grids are parts of one lattice. -/
def SameLattice (dx : K) (g g' : Axes d K) : Prop :=
  ∀ a, ∀ x ∈ g a, ∀ y ∈ g' a, ∃ k : ℤ, y = x + k * dx

lemma GoodAt.xi {x : Fin d → K} {s : Stencil d K} (h : GoodAt deg dx g x s) (a : Fin d) (i : Fin 4) :
    ∃ hk : s.base a + i.val < (g a).length, s.xi a i = (g a)[s.base a + i.val] ∧
      s.W a i = N deg ((x a - s.xi a i) * (1 / dx)) ∧
      s.G a i = dNdu deg ((x a - s.xi a i) * (1 / dx)) * (1 / dx) := by
  have h1 := h.p2g
  simp only [stencilP2G, Option.bind_eq_some_iff] at h1
  obtain ⟨b, -, h1⟩ := h1
  unfold mkStencil at h1
  split_ifs at h1 with hb
  have h1 := Option.some.inj h1
  subst h1
  exact ⟨by have := hb a; have := i.isLt; simp only; omega, rfl, rfl, rfl⟩

lemma GoodAt.base {x : Fin d → K} {s : Stencil d K} (h : GoodAt deg dx g x s) (a : Fin d) :
    baseInt (1 / dx) (g a) (x a) = some (s.base a : ℤ) := by
  have h1 := h.g2p
  simp only [stencilG2P, Option.bind_eq_some_iff] at h1
  obtain ⟨b, hb, h1⟩ := h1
  have hb := of_sequenceFin_some hb a
  unfold mkStencil at h1
  split_ifs at h1 with hl
  have h1 := Option.some.inj h1
  subst h1
  simp only [baseG2P, Option.bind_eq_some_iff] at hb
  obtain ⟨z, hz, hb⟩ := hb
  split_ifs at hb with h0
  show baseInt (1 / dx) (g a) (x a) = some ((b a : ℕ) : ℤ)
  rw [hz, ← Option.some.inj hb, Int.toNat_of_nonneg (not_lt.mp h0)]

/-- Where the stencil of a particle lies does not depend on where the grid begins and ends. -/
lemma stencil_same {x : Fin d → K} {s s' : Stencil d K} (hdx : 0 < dx) (hu : ∀ a, UniformAxis dx (g a))
    (hu' : ∀ a, UniformAxis dx (g' a)) (hl : SameLattice dx g g') (h : GoodAt deg dx g x s) (h' : GoodAt deg dx g' x s') :
    s'.xi = s.xi ∧ s'.W = s.W ∧ s'.G = s.G := by
  have hxi : s'.xi = s.xi := by
    funext a i
    obtain ⟨hk, e, -, -⟩ := h.xi a i
    obtain ⟨hk', e', -, -⟩ := h'.xi a i
    obtain ⟨x0, hx0⟩ := hu a
    obtain ⟨y0, hy0⟩ := hu' a
    have b := h.base a
    have b' := h'.base a
    have l0 : 0 < (g a).length := by omega
    have l0' : 0 < (g' a).length := by omega
    have f : (g a).head? = some x0 := by
      rw [List.head?_eq_getElem?, List.getElem?_eq_getElem l0, UniformAxis.getElem hx0 l0]; simp
    have f' : (g' a).head? = some y0 := by
      rw [List.head?_eq_getElem?, List.getElem?_eq_getElem l0', UniformAxis.getElem hy0 l0']; simp
    obtain ⟨k, hk0⟩ := hl a x0 (List.mem_of_head? f) y0 (List.mem_of_head? f')
    rw [e, e', UniformAxis.getElem hx0 hk, UniformAxis.getElem hy0 hk', hk0]
    simp only [baseInt, f, Option.map_some, Option.some.injEq] at b
    simp only [baseInt, f', Option.map_some, Option.some.injEq] at b'
    have e1 : (x a - y0) * (1 / dx) = (x a - x0) * (1 / dx) - k := by rw [hk0]; field_simp; ring
    rw [e1, Int.floor_sub_intCast] at b'
    have e2 : (s.base a : ℤ) = s'.base a + k := by omega
    have e3 : ((s.base a : ℕ) : K) = s'.base a + k := by exact_mod_cast congrArg (Int.cast (R := K)) e2
    push_cast
    rw [e3]
    ring
  refine ⟨hxi, ?_, ?_⟩
  · funext a i
    obtain ⟨-, -, e, -⟩ := h.xi a i
    obtain ⟨-, -, e', -⟩ := h'.xi a i
    rw [e, e', hxi]
  · funext a i
    obtain ⟨-, -, -, e⟩ := h.xi a i
    obtain ⟨-, -, -, e'⟩ := h'.xi a i
    rw [e, e', hxi]

/-- Interpolation only uses the nodes with a weight. -/
lemma interp_same {n n' : Fin d → ℕ} {v v' : ℕ → Fin d → K} {s s' : Stencil d K} {x : Fin d → K} {D : K}
    (hs : s'.xi = s.xi ∧ s'.W = s.W ∧ s'.G = s.G) (hok : StencilOK n x s) (hg : StencilGradOK D x s)
    (hv : ∀ c, s.weight c ≠ 0 → v' (flatIndex n' (s'.node c)) = v (flatIndex n (s.node c))) :
    interpV n' v' s' = interpV n v s ∧ interpGrad n' v' s' = interpGrad n v s ∧
      interpB n' v' s' x = interpB n v s x := by
  have hw : ∀ c, s'.weight c = s.weight c := fun c => by simp only [Stencil.weight, hs.2.1]
  have hG : ∀ c, s'.weightGrad c = s.weightGrad c := fun c => by
    funext b; simp only [Stencil.weightGrad, hs.2.1, hs.2.2]
  have hp : ∀ c, s'.nodePos c = s.nodePos c := fun c => by funext b; simp only [Stencil.nodePos, hs.1]
  rw [interpV_eq, interpV_eq, interpGrad_eq, interpGrad_eq, interpB_eq, interpB_eq]
  refine ⟨Finset.sum_congr rfl fun c _ => ?_, Finset.sum_congr rfl fun c _ => ?_, Finset.sum_congr rfl fun c _ => ?_⟩
  · rw [hw]
    by_cases h0 : s.weight c = 0
    · rw [h0, zero_smul, zero_smul]
    · rw [hv c h0]
  · rw [hG]
    by_cases h0 : s.weight c = 0
    · rw [hok.grad_zero hg h0]; simp [vecMulVec_zero]
    · rw [hv c h0]
  · rw [hw, hp]
    by_cases h0 : s.weight c = 0
    · rw [h0, zero_smul, zero_smul]
    · rw [hv c h0]

end stencil

section step
variable {K : Type*} [Field K] [LinearOrder K] [IsStrictOrderedRing K] [FloorRing K] {d : ℕ}
variable {deg : Deg} {dx : K} {g g' : Axes (d + 2) K} {S : StepParams (d + 2) K}
  {A B : List (Particle (d + 2) K)} {dt : K} {grav : Fin (d + 2) → K}
  {bc bc' : ℕ → (Fin (d + 2) → K) → (Fin (d + 2) → K) → (Fin (d + 2) → K)}

/-- No node, wherever it is, has a weight for particles of both lists. -/
def Apart (deg : Deg) (dx : K) (A B : List (Particle (d + 2) K)) : Prop :=
  ∀ p ∈ A, ∀ q ∈ B, ∀ X, shape deg dx X p.x = 0 ∨ shape deg dx X q.x = 0

lemma raw_apart (P : TransferParams K) {i i' : Fin (d + 2) → ℕ} (hi : IsNode g i) (hi' : IsNode g' i')
    (hX : nodeAt g i = nodeAt g' i') (h : GoodGrid dx g (A ++ B)) (h' : GoodGrid dx g' A) (hB : ∀ q ∈ B, shape deg dx (nodeAt g i) q.x = 0) :
    raw P deg dx g' A (flatIndex g'.size i') = raw P deg dx g (A ++ B) (flatIndex g.size i) := by
  rw [raw_node h hi, raw_node h' hi', List.map_append, List.sum_append, ← hX]
  have : (B.map fun p => if shape deg dx (nodeAt g i) p.x > cutoff then
        nodeContribution deg dx P p (nodeAt g i) else 0).sum = 0 := by
    apply List.sum_eq_zero
    intro a ha
    obtain ⟨q, hq, rfl⟩ := List.mem_map.mp ha
    rw [hB q hq, if_neg (not_lt.mpr cutoff_pos.le)]
  rw [this, add_zero]

/-- Data of a pair of runs at the beginning of a step: particles `A ++ B` on the grid `g`, particles `A` on the grid `g'`. -/
structure Pair (deg : Deg) (dx : K) (g g' : Axes (d + 2) K) (A B : List (Particle (d + 2) K)) : Prop where
  deg_ne : deg ≠ .one
  good : GoodGrid dx g (A ++ B)
  good' : GoodGrid dx g' A
  lattice : SameLattice dx g g'
  apart : Apart deg dx A B

variable (hp : Pair deg dx g g' A B)
include hp

lemma Pair.stencil {p : Particle (d + 2) K} (h : p ∈ A) :
    let s := stencilOf deg dx g p.x
    let s' := stencilOf deg dx g' p.x
    (s'.xi = s.xi ∧ s'.W = s.W ∧ s'.G = s.G) ∧ GoodAt deg dx g p.x s ∧ GoodAt deg dx g' p.x s' := by
  have h1 := hp.good.good (deg := deg) (p := p) (by simp [h])
  have h2 := hp.good'.good (deg := deg) h
  exact ⟨stencil_same hp.good.dx_pos hp.good.uniform hp.good'.uniform hp.lattice h1 h2, h1, h2⟩

/-- The nodes with a weight for a particle of `A`. -/
lemma Pair.node {p : Particle (d + 2) K} (h : p ∈ A) (c : Fin (d + 2) → Fin 4)
    (hc : (stencilOf deg dx g p.x).weight c ≠ 0) :
    IsNode g ((stencilOf deg dx g p.x).node c) ∧ IsNode g' ((stencilOf deg dx g' p.x).node c) ∧
      nodeAt g ((stencilOf deg dx g p.x).node c) = nodeAt g' ((stencilOf deg dx g' p.x).node c) ∧
      ∀ q ∈ B, shape deg dx (nodeAt g ((stencilOf deg dx g p.x).node c)) q.x = 0 := by
  obtain ⟨hs, h1, h2⟩ := hp.stencil h
  refine ⟨h1.ok.node_lt c, h2.ok.node_lt c, ?_, fun q hq => ?_⟩
  · rw [← h1.pos, ← h2.pos]
    funext b
    simp only [Stencil.nodePos, hs.1]
  · rcases hp.apart p h q hq (nodeAt g ((stencilOf deg dx g p.x).node c)) with h0 | h0
    · rw [h1.weight, h1.pos] at hc
      exact absurd h0 hc
    · exact h0

variable (hbc : ∀ l l' X v, raw S.P deg dx g (A ++ B) l = raw S.P deg dx g' A l' → bc' l' X v = bc l X v)
include hbc

lemma Pair.euler {p : Particle (d + 2) K} (h : p ∈ A) (c : Fin (d + 2) → Fin 4)
    (hc : (stencilOf deg dx g p.x).weight c ≠ 0) :
    let l := flatIndex g.size ((stencilOf deg dx g p.x).node c)
    let l' := flatIndex g'.size ((stencilOf deg dx g' p.x).node c)
    (stepEuler S deg dx dt grav bc' g' A).v l' = (stepEuler S deg dx dt grav bc g (A ++ B)).v l ∧
    (stepEuler S deg dx dt grav bc' g' A).flip l' = (stepEuler S deg dx dt grav bc g (A ++ B)).flip l := by
  obtain ⟨hi, hi', hX, hB⟩ := hp.node h c hc
  have hr := raw_apart (deg := deg) S.P hi hi' hX hp.good hp.good' hB
  have harr : p2gFinish S.P (raw S.P deg dx g' A) (flatIndex g'.size ((stencilOf deg dx g' p.x).node c)) =
      p2gFinish S.P (raw S.P deg dx g (A ++ B)) (flatIndex g.size ((stencilOf deg dx g p.x).node c)) := by
    simp only [p2gFinish, hr]
  have e := eulerUpdate_at S.P dt grav bc g (p2gFinish S.P (raw S.P deg dx g (A ++ B))) hi
  have e' := eulerUpdate_at S.P dt grav bc' g' (p2gFinish S.P (raw S.P deg dx g' A)) hi'
  simp only at e e'
  simp only [stepEuler, e.1, e.2, e'.1, e'.2, harr, hX, fun v => hbc _ _ (nodeAt g' ((stencilOf deg dx g' p.x).node c)) v hr.symm,
    and_self]

/-- The transfer from the grid to the particles of `A`. -/
lemma Pair.transfer {p : Particle (d + 2) K} (h : p ∈ A) :
    g2pTransfer S.P g'.size (stepEuler S deg dx dt grav bc' g' A) p (stencilOf deg dx g' p.x) =
      g2pTransfer S.P g.size (stepEuler S deg dx dt grav bc g (A ++ B)) p (stencilOf deg dx g p.x) := by
  obtain ⟨hs, h1, h2⟩ := hp.stencil h
  obtain ⟨D, hD⟩ := h1.gradOK hp.deg_ne
  have hv := interp_same (n' := g'.size) (v := (stepEuler S deg dx dt grav bc g (A ++ B)).v)
    (v' := (stepEuler S deg dx dt grav bc' g' A).v) hs h1.ok hD fun c hc => (hp.euler hbc h c hc).1
  have hf := interp_same (n' := g'.size) (v := (stepEuler S deg dx dt grav bc g (A ++ B)).flip)
    (v' := (stepEuler S deg dx dt grav bc' g' A).flip) hs h1.ok hD fun c hc => (hp.euler hbc h c hc).2
  simp only [g2pTransfer, hv.1, hv.2.2, hf.1]

/-- The velocity gradient at the particles of `A`. -/
lemma Pair.grad {p : Particle (d + 2) K} (h : p ∈ A) :
    interpGrad g'.size (gradVel S deg dx dt grav bc' g' A) (stencilOf deg dx g' p.x) =
      interpGrad g.size (gradVel S deg dx dt grav bc g (A ++ B)) (stencilOf deg dx g p.x) := by
  obtain ⟨hs, h1, h2⟩ := hp.stencil h
  obtain ⟨D, hD⟩ := h1.gradOK hp.deg_ne
  refine (interp_same hs h1.ok hD fun c hc => ?_).2.1
  by_cases hm : S.useMusl = true
  swap
  · simp only [gradVel, if_neg hm]
    exact (hp.euler hbc h c hc).1
  obtain ⟨hi, hi', hX, hB⟩ := hp.node h c hc
  have hr := raw_apart (deg := deg) S.P hi hi' hX hp.good hp.good' hB
  simp only [gradVel, if_pos hm, muslFinish]
  have hA : ∀ p ∈ A, (let q := g2pTransfer S.P g'.size (stepEuler S deg dx dt grav bc' g' A) p (stencilOf deg dx g' p.x)
      ({ q with v := blendVelocity S.P q } : Particle (d + 2) K)) =
      (let q := g2pTransfer S.P g.size (stepEuler S deg dx dt grav bc g (A ++ B)) p (stencilOf deg dx g p.x)
      ({ q with v := blendVelocity S.P q } : Particle (d + 2) K)) := fun p hpA => by
    simp only [hp.transfer (dt := dt) (grav := grav) hbc hpA]
  rw [List.map_congr_left hA, List.map_append]
  have hr2 := raw_apart (deg := deg) (A := A.map fun p =>
      let q := g2pTransfer S.P g.size (stepEuler S deg dx dt grav bc g (A ++ B)) p (stencilOf deg dx g p.x)
      { q with v := blendVelocity S.P q }) (B := B.map fun p =>
      let q := g2pTransfer S.P g.size (stepEuler S deg dx dt grav bc g (A ++ B)) p (stencilOf deg dx g p.x)
      { q with v := blendVelocity S.P q }) S.P hi hi' hX (by
        rw [← List.map_append]; exact hp.good.map fun _ _ => rfl) (hp.good'.map fun _ _ => rfl) (by
        intro q hq
        obtain ⟨q2, hq2, rfl⟩ := List.mem_map.mp hq
        exact hB q2 hq2)
  rw [hr2]
  simp only [p2gFinish, hr]
  rfl

end step

section whole

lemma mapM_all {α β : Type*} {f : α → Option β} {h : α → β} : ∀ {l : List α}, (∀ a ∈ l, f a = some (h a)) →
    l.mapM f = some (l.map h)
  | [], _ => rfl
  | a :: l, hl => by
    rw [List.mapM_cons, hl a (by simp), mapM_all (l := l) fun b hb => hl b (by simp [hb])]
    rfl

lemma mapM_congr' {α β : Type*} {f h : α → Option β} : ∀ {l : List α}, (∀ a ∈ l, f a = h a) → l.mapM f = l.mapM h
  | [], _ => rfl
  | a :: l, hl => by
    rw [List.mapM_cons, List.mapM_cons, hl a (by simp), mapM_congr' (l := l) fun b hb => hl b (by simp [hb])]

variable {d : ℕ} {R : Setup (d + 2)} {dt : ℝ} {grav : Fin (d + 2) → ℝ} {time : ℝ} {n : ℕ} {deg : Deg} {dx : ℝ}

/-- The walls during a step with the particles `ps` on the grid `g`. -/
noncomputable def wallsOn (R : Setup (d + 2)) (deg : Deg) (dx dt : ℝ) (g : Axes (d + 2) ℝ) (w : World (d + 2)) :
    ℕ → (Fin (d + 2) → ℝ) → (Fin (d + 2) → ℝ) → (Fin (d + 2) → ℝ) :=
  boundaryCollision R.ops R.S.P.useMibf (fun l => (p2gFinish R.S.P (raw R.S.P deg dx g w.ps) l).friction) dt R.objs w.plates

/-- The state of a particle handed to the plastic update, and its result. -/
noncomputable def particleStep (R : Setup (d + 2)) (deg : Deg) (dx dt : ℝ) (grav : Fin (d + 2) → ℝ) (g : Axes (d + 2) ℝ)
    (w : World (d + 2)) (p : Particle (d + 2) ℝ) : Option (Particle (d + 2) ℝ × Bool) :=
  let q := g2pTransfer R.S.P g.size (stepEuler R.S deg dx dt grav (wallsOn R deg dx dt g w) g w.ps) p (stencilOf deg dx g p.x)
  let q := if R.S.useMusl then { q with v := blendVelocity R.S.P q, deltaGamma := 0 } else q
  plasticUpdate R dt { q with F := trialF dt (interpGrad g.size
    (gradVel R.S deg dx dt grav (wallsOn R deg dx dt g w) g w.ps) (stencilOf deg dx g p.x)) p.F }

/-- A step with all particles inside the grid, as one formula. -/
lemma physStep_good {w : World (d + 2)} (hpbc : R.S.pbc = false) (hP : R.S.P.deg = deg) (hP1 : R.S.P.oneOverDx = 1 / dx)
    (hsched : ∀ ps, (R.sched n ps).flatten.Perm ps) {bg : Option (Fin (d + 2) → AxisInit ℝ) × Axes (d + 2) ℝ}
    (hbg : chooseGrid R.S ⟨w.ps, w.box, w.g, n⟩ = some bg) (hg : GoodGrid dx bg.2 w.ps) :
    physStep R w dt grav time n = (w.ps.mapM (particleStep R deg dx dt grav bg.2 w)).map fun qs =>
      ({ ps := qs.map fun q => positionParticle R.S.P R.S.useMusl false R.S.changePos (R.S.L 0) dt q.1
         box := bg.1
         g := bg.2
         plates := w.plates.map fun p => R.ops.move p dt R.C.frameDt time
         mass := fun l => (p2gFinish R.S.P (raw R.S.P deg dx bg.2 w.ps) l).mass
         vel := gradVel R.S deg dx dt grav (wallsOn R deg dx dt bg.2 w) bg.2 w.ps
         friction := fun l => (p2gFinish R.S.P (raw R.S.P deg dx bg.2 w.ps) l).friction }, qs.any (·.2)) := by
  have hP2G : P2G R.S.P bg.2 (R.sched n w.ps) = some (p2gFinish R.S.P (raw R.S.P deg dx bg.2 w.ps)) := by
    rw [P2G_eq hP hP1 (hg.perm (hsched _)), raw_perm (hsched _)]
  have hst := withStencilsG2P_eq hP hP1 hg
  rw [physStep_eq, hbg, Option.bind_some]
  simp only [hpbc, Bool.false_eq_true, if_false, List.append_nil, ne_eq, not_true_eq_false, and_false, hP2G, Option.bind_some,
    afterP2G]
  by_cases hu : R.S.useMusl = true
  · have hq : g2pFull R dt bg.2 (stepEuler R.S deg dx dt grav (wallsOn R deg dx dt bg.2 w) bg.2 w.ps) w.ps =
        some (w.ps.map fun p => (g2pTransfer R.S.P bg.2.size (stepEuler R.S deg dx dt grav (wallsOn R deg dx dt bg.2 w) bg.2 w.ps) p
          (stencilOf deg dx bg.2 p.x), false)) := by
      simp only [g2pFull, hst, Option.bind_eq_bind, Option.bind_some]
      rw [List.mapM_map]
      exact mapM_all fun a _ => by simp only [Function.comp, g2pFullParticle, if_pos hu]
    obtain ⟨r, hr⟩ : ∃ r, MUSL R.S.P bg.2 (fun l => (p2gFinish R.S.P (raw R.S.P deg dx bg.2 w.ps) l).mass)
        [w.ps.map fun p => g2pTransfer R.S.P bg.2.size (stepEuler R.S deg dx dt grav (wallsOn R deg dx dt bg.2 w) bg.2 w.ps) p
          (stencilOf deg dx bg.2 p.x)] = some r := by
      obtain ⟨ss, this⟩ : ∃ ss, [(w.ps.map fun p => g2pTransfer R.S.P bg.2.size (stepEuler R.S deg dx dt grav (wallsOn R deg dx dt bg.2 w) bg.2 w.ps) p
          (stencilOf deg dx bg.2 p.x)).map fun p => { p with v := blendVelocity R.S.P p }].mapM
            (withStencils (stencilP2G R.S.P.deg R.S.P.oneOverDx bg.2)) = some ss := by
        refine ⟨_, mapM_withStencils (sf := stencilOf deg dx bg.2) ?_⟩
        intro q hq
        rw [hP, hP1]
        rw [List.map_map] at hq
        obtain ⟨p, hp, rfl⟩ := List.mem_map.mp (by simpa using hq : q ∈ w.ps.map _)
        exact (hg.good hp).p2g
      simp only [MUSL, List.map_cons, List.map_nil, this, Option.bind_eq_bind, Option.bind_some]
      exact ⟨_, rfl⟩
    have hr2 := musl_eq (S := R.S) (dt := dt) (grav := grav) (bc := wallsOn R deg dx dt bg.2 w) (plast := fun p => p) hu hP hP1 hg
      (by simp only [G2P, hst, Option.bind_eq_bind, Option.bind_some, List.map_map]; rfl) hr
    have hr1 : r.1.flatten = w.ps.map fun p =>
        let q := g2pTransfer R.S.P bg.2.size (stepEuler R.S deg dx dt grav (wallsOn R deg dx dt bg.2 w) bg.2 w.ps) p
          (stencilOf deg dx bg.2 p.x)
        { q with v := blendVelocity R.S.P q } := by
      simp only [MUSL, Option.bind_eq_bind, Option.bind_eq_some_iff, Option.some.injEq] at hr
      obtain ⟨_, -, rfl⟩ := hr
      simp only [List.map_cons, List.map_nil, List.flatten_cons, List.flatten_nil, List.append_nil, List.map_map]
      rfl
    have hst2 := withStencilsG2P_eq (P := R.S.P) (ps := r.1.flatten) hP hP1 (by rw [hr1]; exact hg.map fun _ _ => rfl)
    show ((g2pFull R dt bg.2 (stepEuler R.S deg dx dt grav (wallsOn R deg dx dt bg.2 w) bg.2 w.ps) w.ps).bind _) = _
    rw [hq, Option.bind_some]
    simp only [List.map_map, Function.comp_def]
    rw [if_pos hu]
    rw [show (fun l => (p2gFinish R.S.P (raw R.S.P deg dx bg.2 w.ps) l).mass) =
      fun l => (p2gFinish R.S.P (raw R.S.P deg dx bg.2 w.ps) l).mass from rfl, hr, Option.bind_some, hr2]
    simp only [deformFull, hst2, Option.bind_eq_bind, Option.bind_some]
    rw [hr1, List.map_map, List.mapM_map]
    have e : (deformFullParticle R dt bg.2.size (gradVel R.S deg dx dt grav (wallsOn R deg dx dt bg.2 w) bg.2 w.ps) ∘
        (fun p => (p, stencilOf deg dx bg.2 p.x)) ∘ fun p =>
          let q := g2pTransfer R.S.P bg.2.size (stepEuler R.S deg dx dt grav (wallsOn R deg dx dt bg.2 w) bg.2 w.ps) p
            (stencilOf deg dx bg.2 p.x)
          ({ q with v := blendVelocity R.S.P q } : Particle (d + 2) ℝ)) = particleStep R deg dx dt grav bg.2 w := by
      funext p
      simp only [particleStep, if_pos hu, Function.comp]
      rfl
    rw [e]
    cases w.ps.mapM (particleStep R deg dx dt grav bg.2 w) <;> rfl
  · have e : (g2pFullParticle R dt bg.2.size (stepEuler R.S deg dx dt grav (wallsOn R deg dx dt bg.2 w) bg.2 w.ps) ∘
        fun p => (p, stencilOf deg dx bg.2 p.x)) = particleStep R deg dx dt grav bg.2 w := by
      funext p
      simp only [particleStep, if_neg hu, Function.comp, g2pFullParticle, gradVel]
      rfl
    have hq : g2pFull R dt bg.2 (stepEuler R.S deg dx dt grav (wallsOn R deg dx dt bg.2 w) bg.2 w.ps) w.ps =
        w.ps.mapM (particleStep R deg dx dt grav bg.2 w) := by
      simp only [g2pFull, hst, Option.bind_eq_bind, Option.bind_some]
      rw [List.mapM_map, e]
    show ((g2pFull R dt bg.2 (stepEuler R.S deg dx dt grav (wallsOn R deg dx dt bg.2 w) bg.2 w.ps) w.ps).bind _) = _
    rw [hq]
    simp only [if_neg hu, gradVel]
    cases w.ps.mapM (particleStep R deg dx dt grav bg.2 w) <;> rfl

end whole
end Verif
