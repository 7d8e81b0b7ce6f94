import Verif.Props.PeriodicStep
import Verif.Lemmas.Local
import Verif.Props.Shift
import Verif.Props.RunExamples
import Mathlib.Algebra.BigOperators.Finprod

set_option linter.unusedSectionVars false
set_option linter.unusedSimpArgs false
set_option linter.unusedVariables false

/-!
# C121: where the seam of a periodic domain lies does not matter
-/

namespace Verif.Props
open Verif Matrix
variable {K : Type*} [Field K] [LinearOrder K] [IsStrictOrderedRing K] [FloorRing K] {d : ℕ}

/-- `p'` is `p`, moved by `k` cells and any number of periods of `n` cells in the periodic direction; nothing else
differs. -/
def Moved (dx : K) (n : ℕ) (k : ℤ) (p p' : Particle (d + 2) K) : Prop :=
  ∃ j : ℤ, p' = { p with x := Function.update p.x 0 (p.x 0 + (k + j * n) * dx) }

lemma forall₂_with_mem {α β : Type*} {R : α → β → Prop} {l : List α} {l' : List β} (h : List.Forall₂ R l l') :
    List.Forall₂ (fun a b => a ∈ l ∧ b ∈ l' ∧ R a b) l l' := by
  induction h with
  | nil => exact .nil
  | cons h t ih =>
    exact .cons ⟨by simp, by simp, h⟩ (ih.imp fun _ _ ⟨h1, h2, h3⟩ => ⟨by simp [h1], by simp [h2], h3⟩)

section nodes
variable {deg : Deg} {dx : K} {P : TransferParams K} {L : Fin (d + 2) → K} {n : ℕ} {g : Axes (d + 2) K}
  {ps ps' : List (Particle (d + 2) K)} {k : ℤ}

/-- What a particle and its two neighbouring images give to a node near the domain is what all its images give. -/
lemma images_all (h0 : 0 < dx) {Lx : K} (hL : 8 * dx ≤ Lx) {p : Particle (d + 2) K} (hp0 : 0 ≤ p.x 0)
    (hp1 : p.x 0 < Lx) {X : Fin (d + 2) → K} (hX0 : -(2 * dx) ≤ X 0) (hX1 : X 0 ≤ Lx + 2 * dx) :
    nodeC P deg dx X p + (nodeC P deg dx X (shiftX (-Lx) p) + nodeC P deg dx X (shiftX Lx p)) =
      ∑ᶠ c : ℤ, nodeC P deg dx X (shiftX (c * Lx) p) := by
  have hsub : Function.support (fun c : ℤ => nodeC P deg dx X (shiftX (c * Lx) p)) ⊆
      (({-1, 0, 1} : Finset ℤ) : Set ℤ) := by
    intro c hc
    by_contra hn
    apply hc
    simp only [Finset.coe_insert, Finset.coe_singleton, Set.mem_insert_iff, Set.mem_singleton_iff, not_or] at hn
    refine nodeC_far h0 ?_
    have hx : (shiftX (c * Lx) p).x 0 = p.x 0 + c * Lx := by simp [shiftX]
    rw [hx]
    have hLp : 0 < Lx := by linarith
    rcases (by omega : c ≤ -2 ∨ 2 ≤ c) with h | h
    · have : (c : K) ≤ -2 := by exact_mod_cast h
      have := mul_le_mul_of_nonneg_right this hLp.le
      rw [abs_of_nonpos] <;> linarith
    · have : (2 : K) ≤ c := by exact_mod_cast h
      have := mul_le_mul_of_nonneg_right this hLp.le
      rw [abs_of_nonneg] <;> linarith
  rw [finsum_eq_sum_of_support_subset _ hsub]
  rw [Finset.sum_insert (by decide), Finset.sum_insert (by decide), Finset.sum_singleton]
  have e0 : shiftX (((0 : ℤ) : K) * Lx) p = p := by simp [shiftX]
  rw [e0]
  push_cast
  rw [neg_one_mul, one_mul]
  abel

/-- The images of a moved particle, seen from a moved node. -/
lemma images_moved {Lx c : K} (t : ℤ) (X : Fin (d + 2) → K) (p : Particle (d + 2) K) :
    ∑ᶠ z : ℤ, nodeC P deg dx (Function.update X 0 (X 0 + c)) (shiftX (z * Lx) (shiftX (c + t * Lx) p)) =
      ∑ᶠ z : ℤ, nodeC P deg dx X (shiftX (z * Lx) p) := by
  have h : ∀ z : ℤ, nodeC P deg dx (Function.update X 0 (X 0 + c)) (shiftX (z * Lx) (shiftX (c + t * Lx) p)) =
      (fun z : ℤ => nodeC P deg dx X (shiftX (z * Lx) p)) (Equiv.addRight t z) := by
    intro z
    have := nodeC_shift (P := P) (deg := deg) (dx := dx) c X (shiftX (((z + t : ℤ) : K) * Lx) p)
    rw [shiftX_shiftX] at this
    simp only [Equiv.coe_addRight]
    rw [← this, shiftX_shiftX]
    congr 2
    push_cast; ring
  refine (finsum_congr h).trans ?_
  exact finsum_comp_equiv (f := fun z : ℤ => nodeC P deg dx X (shiftX (z * Lx) p)) (Equiv.addRight t)

variable (h0 : 0 < dx) (hL : ∀ a, 0 ≤ L a) (hn : 8 ≤ n) (hper : L 0 = n * dx)
  (hg : remeshPeriodic dx L 4 = some g) (hd : InDomain dx L ps) (hd' : InDomain dx L ps')
  (hmv : List.Forall₂ (Moved dx n k) ps ps')
include h0 hL hn hper hg hd hd' hmv

/-- Moved particles give to moved nodes what the particles give to the nodes. -/
lemma raw_moved {i i' : Fin (d + 2) → ℕ} (hi : IsNode g i) (hi' : IsNode g i') {m : ℤ}
    (hii : (i' 0 : ℤ) = i 0 + k + m * n) (hia : ∀ a ≠ 0, i' a = i a) (h3 : 3 ≤ i 0) (h7 : i 0 ≤ n + 7)
    (h3' : 3 ≤ i' 0) (h7' : i' 0 ≤ n + 7) :
    raw P deg dx g (ps' ++ ghosts dx (L 0) 4 ps') (flatIndex g.size i') =
      raw P deg dx g (ps ++ ghosts dx (L 0) 4 ps) (flatIndex g.size i) := by
  obtain ⟨hlen, -, hpos⟩ := periodic_axis h0 hL hper hg
  obtain ⟨hall, -⟩ := periodic_good h0 hL hn hper hg hd
  obtain ⟨hall', -⟩ := periodic_good h0 hL hn hper hg hd'
  have hL8 : 8 * dx ≤ L 0 := by
    rw [hper]
    exact mul_le_mul_of_nonneg_right (by exact_mod_cast hn) h0.le
  have hrange : ∀ i : Fin (d + 2) → ℕ, IsNode g i → 3 ≤ i 0 → i 0 ≤ n + 7 →
      -(2 * dx) ≤ nodeAt g i 0 ∧ nodeAt g i 0 ≤ L 0 + 2 * dx := by
    intro i hi h3 h7
    rw [hpos i hi, hper]
    have a1 : (3 : K) ≤ ((i 0 : ℕ) : K) := by exact_mod_cast h3
    have a2 : ((i 0 : ℕ) : K) ≤ n + 7 := by exact_mod_cast h7
    constructor
    · linarith [mul_le_mul_of_nonneg_right a1 h0.le]
    · linarith [mul_le_mul_of_nonneg_right a2 h0.le]
  obtain ⟨r1, r2⟩ := hrange i hi h3 h7
  obtain ⟨r1', r2'⟩ := hrange i' hi' h3' h7'
  have hX : nodeAt g i' = Function.update (nodeAt g i) 0 (nodeAt g i 0 + (k + m * n) * dx) := by
    funext a
    by_cases ha : a = 0
    · subst ha
      rw [Function.update_self, hpos i hi, hpos i' hi']
      have : ((i' 0 : ℕ) : K) = i 0 + k + m * n := by exact_mod_cast congrArg (Int.cast (R := K)) hii
      rw [this]; ring
    · rw [Function.update_of_ne ha]
      simp only [nodeAt, hia a ha]
  have e1 := sum_ghosts (P := P) (deg := deg) h0 hL8 hd.x r1 r2
  have e2 := sum_ghosts (P := P) (deg := deg) h0 hL8 hd'.x r1' r2'
  rw [raw_node hall hi, raw_node hall' hi']
  refine Eq.trans e2 (Eq.trans ?_ e1.symm)
  clear e1 e2 hall hall'
  have hx := hd.x
  have hx' := hd'.x
  clear hd hd'
  induction hmv with
  | nil => rfl
  | @cons p p' l l' hpp hll ih =>
    rw [List.map_cons, List.map_cons, List.sum_cons, List.sum_cons,
      ih (fun q hq => hx q (by simp [hq])) (fun q hq => hx' q (by simp [hq]))]
    congr 1
    obtain ⟨j, hj⟩ := hpp
    have hsh : p' = shiftX ((k + m * n) * dx + ((j - m : ℤ) : K) * L 0) p := by
      rw [hj, shiftX, hper]
      congr 3
      push_cast; ring
    rw [images_all h0 hL8 (hx p (by simp)).1 (hx p (by simp)).2 r1 r2,
      images_all h0 hL8 (hx' p' (by simp)).1 (hx' p' (by simp)).2 r1' r2', hX, hsh]
    exact images_moved (j - m) _ p

/-- The stencil of a moved particle. -/
lemma stencil_moved {p p' : Particle (d + 2) K} (hp : p ∈ ps) (hp' : p' ∈ ps') {j : ℤ}
    (hj : p' = { p with x := Function.update p.x 0 (p.x 0 + (k + j * n) * dx) }) :
    let s := stencilOf deg dx g p.x
    let s' := stencilOf deg dx g p'.x
    (∀ c, (s'.node c 0 : ℤ) = s.node c 0 + k + j * n) ∧ (∀ c, ∀ a ≠ 0, s'.node c a = s.node c a) ∧
      (∀ c, s'.weight c = s.weight c) ∧ (∀ c, s'.weightGrad c = s.weightGrad c) ∧
      (∀ c, s'.nodePos c - p'.x = s.nodePos c - p.x) ∧ (∀ c, 3 ≤ s.node c 0 ∧ s.node c 0 ≤ n + 7) ∧
      (∀ c, 3 ≤ s'.node c 0 ∧ s'.node c 0 ≤ n + 7) := by
  intro s s'
  obtain ⟨hlen, -, hpos⟩ := periodic_axis h0 hL hper hg
  have hgood := (periodic_good h0 hL hn hper hg hd).2.good (deg := deg) hp
  have hgood' := (periodic_good h0 hL hn hper hg hd').2.good (deg := deg) hp'
  have hx0 : p'.x 0 = p.x 0 + (k + j * n) * dx := by rw [hj]; simp
  have hxa : ∀ a ≠ 0, p'.x a = p.x a := fun a ha => by rw [hj]; simp [Function.update_of_ne ha]
  obtain ⟨x0, hh⟩ : ∃ x0, (g 0).head? = some x0 := by
    cases h : g 0 with
    | nil => rw [h] at hlen; simp at hlen
    | cons a l => exact ⟨a, rfl⟩
  have hx05 : x0 = -(5 * dx) := by
    obtain ⟨g', hg', hax⟩ := periodic_grid (d := d) h0 hL
    obtain rfl := Option.some.inj (hg.symm.trans hg')
    have := (hax 0).2.1
    simp only [Fin.val_zero, zero_ne_one, if_false] at this
    exact Option.some.inj (hh.symm.trans this)
  have hb := hgood.base 0
  have hb' := hgood'.base 0
  simp only [baseInt, hh, Option.map_some, Option.some.injEq] at hb hb'
  have hbase : (s'.base 0 : ℤ) = s.base 0 + k + j * n := by
    have e1 : (p'.x 0 - x0) * (1 / dx) = (p.x 0 - x0) * (1 / dx) + ((k + j * n : ℤ) : K) := by
      rw [hx0]; push_cast; field_simp; ring
    rw [e1, Int.floor_add_intCast] at hb'
    show ((stencilOf deg dx g p'.x).base 0 : ℤ) = (stencilOf deg dx g p.x).base 0 + k + j * n
    omega
  have hbasea : ∀ a ≠ 0, s'.base a = s.base a := by
    intro a ha
    have h1 := hgood.base a
    have h2 := hgood'.base a
    rw [hxa a ha, h1] at h2
    have := Option.some.inj h2
    exact_mod_cast this.symm
  have hbound : ∀ {q : Fin (d + 2) → K} {b : ℕ}, 0 ≤ q 0 → q 0 < L 0 → ⌊(q 0 - x0) * (1 / dx)⌋ - 1 = (b : ℤ) →
      4 ≤ b ∧ b ≤ n + 3 := by
    intro q b hq0 hq1 hb
    have hf : ⌊(q 0 - x0) * (1 / dx)⌋ = (b : ℤ) + 1 := by omega
    rw [Int.floor_eq_iff] at hf
    push_cast at hf
    rw [hx05, mul_one_div, le_div_iff₀ h0, div_lt_iff₀ h0] at hf
    constructor
    · by_contra hc
      have : (b : K) ≤ 3 := by exact_mod_cast (by omega : b ≤ 3)
      have := mul_le_mul_of_nonneg_right this h0.le
      linarith [hf.2]
    · by_contra hc
      have : (n : K) + 4 ≤ b := by exact_mod_cast (by omega : n + 4 ≤ b)
      have := mul_le_mul_of_nonneg_right this h0.le
      rw [hper] at hq1
      linarith [hf.1]
  have hnode0 : ∀ c, (s'.node c 0 : ℤ) = s.node c 0 + k + j * n := by
    intro c
    simp only [Stencil.node]
    push_cast
    omega
  have hnodea : ∀ c, ∀ a ≠ 0, s'.node c a = s.node c a := by
    intro c a ha
    simp only [Stencil.node, hbasea a ha]
  have hposn : ∀ c, s'.nodePos c - p'.x = s.nodePos c - p.x := by
    intro c
    have hn1 : IsNode g (s.node c) := hgood.ok.node_lt c
    have hn2 : IsNode g (s'.node c) := hgood'.ok.node_lt c
    funext a
    rw [Pi.sub_apply, Pi.sub_apply, hgood.pos c, hgood'.pos c]
    by_cases ha : a = 0
    · subst ha
      have h1 := hpos _ hn1
      have h2 := hpos _ hn2
      have h3 : ((s'.node c 0 : ℕ) : K) = s.node c 0 + k + j * n := by
        exact_mod_cast congrArg (Int.cast (R := K)) (hnode0 c)
      refine (congrArg₂ (· - ·) h2 hx0).trans ((Eq.trans ?_ (congrArg (· - p.x 0) h1.symm)))
      rw [h3]; ring
    · rw [hxa a ha]
      simp only [nodeAt]
      congr 2
      exact hnodea c a ha
  have hneg : ∀ c a, p'.x a - s'.nodePos c a = p.x a - s.nodePos c a := by
    intro c a
    have := congrFun (hposn c) a
    simp only [Pi.sub_apply] at this
    linarith
  refine ⟨hnode0, hnodea, ?_, ?_, hposn, ?_, ?_⟩
  · intro c
    rw [hgood.weight c, hgood'.weight c]
    simp only [shape]
    exact Finset.prod_congr rfl fun a _ => by rw [hneg c a]
  · intro c
    rw [hgood.wgrad c, hgood'.wgrad c]
    funext b
    simp only [shapeGrad]
    exact Finset.prod_congr rfl fun a _ => by rw [hneg c a]
  · intro c
    have := hbound (q := p.x) (hd.x p hp).1 (hd.x p hp).2 hb
    have hc := (c 0).isLt
    show 3 ≤ (stencilOf deg dx g p.x).base 0 + (c 0).val ∧ (stencilOf deg dx g p.x).base 0 + (c 0).val ≤ n + 7
    omega
  · intro c
    have := hbound (q := p'.x) (hd'.x p' hp').1 (hd'.x p' hp').2 hb'
    have hc := (c 0).isLt
    show 3 ≤ (stencilOf deg dx g p'.x).base 0 + (c 0).val ∧ (stencilOf deg dx g p'.x).base 0 + (c 0).val ≤ n + 7
    omega

end nodes

section step
variable {deg : Deg} {dx fr m vol : K} {n : ℕ} {g : Axes (d + 2) K} {S : StepParams (d + 2) K}
  {ps ps' : List (Particle (d + 2) K)} {dt : K} {grav : Fin (d + 2) → K}
  {bc : ℕ → (Fin (d + 2) → K) → (Fin (d + 2) → K) → (Fin (d + 2) → K)}
  {plast : Particle (d + 2) K → Particle (d + 2) K} {threads threads' : List (List (Particle (d + 2) K))} {k : ℤ}

/-- A step without MUSL, particle by particle. -/
lemma stepOnGrid_plain {all ghs : List (Particle (d + 2) K)} (hP : S.P.deg = deg) (hP1 : S.P.oneOverDx = 1 / dx)
    (hmibf : S.P.useMibf = false) (hmusl : S.useMusl = false) (h : GoodGrid dx g ps) (ha : GoodGrid dx g all)
    (ht : threads.flatten.Perm all) :
    stepOnGrid S dt grav bc plast g ghs threads ps = some (ps.map fun p =>
      positionParticle S.P false S.pbc S.changePos (S.L 0) dt
        (g2pParticle S.P false dt plast g.size (stepEuler S deg dx dt grav bc g all)
          (p, stencilOf deg dx g p.x))) := by
  have hP2G : P2G S.P g threads = some (p2gFinish S.P (raw S.P deg dx g all)) := by
    rw [P2G_eq hP hP1 (ha.perm ht), raw_perm ht]
  have hg2p := withStencilsG2P_eq hP hP1 h
  simp only [stepOnGrid, hP2G, G2P, hg2p, hmusl, hmibf, Bool.false_eq_true, false_and, if_false,
    Option.bind_eq_bind, Option.bind_some, List.map_map]
  rfl

/-- The state of a particle after the transfer from the grid, with the trial deformation gradient, as handed to the
constitutive law. -/
def handed (S : StepParams (d + 2) K) (deg : Deg) (dx dt : K) (grav : Fin (d + 2) → K)
    (bc : ℕ → (Fin (d + 2) → K) → (Fin (d + 2) → K) → (Fin (d + 2) → K)) (g : Axes (d + 2) K)
    (all : List (Particle (d + 2) K)) (p : Particle (d + 2) K) : Particle (d + 2) K :=
  let e := stepEuler S deg dx dt grav bc g all
  let s := stencilOf deg dx g p.x
  { g2pTransfer S.P g.size e p s with F := trialF dt (interpGrad g.size e.v s) p.F }

/-- The walls treat nodes alike that differ only along the periodic direction. -/
def AlongX (g : Axes (d + 2) K) (bc bc' : ℕ → (Fin (d + 2) → K) → (Fin (d + 2) → K) → (Fin (d + 2) → K)) : Prop :=
  ∀ i i', IsNode g i → IsNode g i' → (∀ a ≠ 0, i' a = i a) →
    ∀ v, bc' (flatIndex g.size i') (nodeAt g i') v = bc (flatIndex g.size i) (nodeAt g i) v

/-- Moved particles get the same from the grid. -/
lemma handed_moved {bc' : ℕ → (Fin (d + 2) → K) → (Fin (d + 2) → K) → (Fin (d + 2) → K)} (h0 : 0 < dx)
    (hL : ∀ a, 0 ≤ S.L a) (hn : 8 ≤ n) (hper : S.L 0 = n * dx) (hg : remeshPeriodic dx S.L 4 = some g)
    (hbc : AlongX g bc bc') (hd : InDomain dx S.L ps) (hd' : InDomain dx S.L ps')
    (hmv : List.Forall₂ (Moved dx n k) ps ps') {p p' : Particle (d + 2) K} (hp : p ∈ ps) (hp' : p' ∈ ps')
    (hpp : Moved dx n k p p') :
    handed S deg dx dt grav bc' g (ps' ++ ghosts dx (S.L 0) 4 ps') p' =
      { handed S deg dx dt grav bc g (ps ++ ghosts dx (S.L 0) 4 ps) p with x := p'.x } := by
  obtain ⟨j, hj⟩ := hpp
  obtain ⟨hall, hreal⟩ := periodic_good h0 hL hn hper hg hd
  obtain ⟨hall', hreal'⟩ := periodic_good h0 hL hn hper hg hd'
  obtain ⟨hlen, -, hpos⟩ := periodic_axis h0 hL hper hg
  set e := stepEuler S deg dx dt grav bc g (ps ++ ghosts dx (S.L 0) 4 ps) with he
  set e' := stepEuler S deg dx dt grav bc' g (ps' ++ ghosts dx (S.L 0) 4 ps') with he'
  -- velocities on the grid
  have hnode : ∀ i i', IsNode g i → IsNode g i' → ∀ z : ℤ, (i' 0 : ℤ) = i 0 + k + z * n → (∀ a ≠ 0, i' a = i a) →
      3 ≤ i 0 → i 0 ≤ n + 7 → 3 ≤ i' 0 → i' 0 ≤ n + 7 →
      e'.v (flatIndex g.size i') = e.v (flatIndex g.size i) ∧
        e'.flip (flatIndex g.size i') = e.flip (flatIndex g.size i) := by
    intro i i' hi hi' z hz hia h3 h7 h3' h7'
    have hraw := raw_moved (P := S.P) (deg := deg) h0 hL hn hper hg hd hd' hmv hi hi' hz hia h3 h7 h3' h7'
    have harr : p2gFinish S.P (raw S.P deg dx g (ps' ++ ghosts dx (S.L 0) 4 ps')) (flatIndex g.size i') =
        p2gFinish S.P (raw S.P deg dx g (ps ++ ghosts dx (S.L 0) 4 ps)) (flatIndex g.size i) := by
      simp only [p2gFinish, hraw]
    have h1 := eulerUpdate_at S.P dt grav bc g (p2gFinish S.P (raw S.P deg dx g (ps ++ ghosts dx (S.L 0) 4 ps))) hi
    have h2 := eulerUpdate_at S.P dt grav bc' g (p2gFinish S.P (raw S.P deg dx g (ps' ++ ghosts dx (S.L 0) 4 ps'))) hi'
    simp only [harr, hbc i i' hi hi' hia] at h2
    exact ⟨h2.1.trans h1.1.symm, h2.2.trans h1.2.symm⟩
  obtain ⟨s1, s2, s3, s4, s5, s6, s7⟩ := stencil_moved (deg := deg) h0 hL hn hper hg hd hd' hmv hp hp' hj
  have hv := fun c => hnode _ _ ((hreal.good (deg := deg) hp).ok.node_lt c) ((hreal'.good (deg := deg) hp').ok.node_lt c)
    j (s1 c) (s2 c) (s6 c).1 (s6 c).2 (s7 c).1 (s7 c).2
  have hpic : interpV g.size e'.v (stencilOf deg dx g p'.x) = interpV g.size e.v (stencilOf deg dx g p.x) := by
    rw [interpV_eq, interpV_eq]
    exact Finset.sum_congr rfl fun c _ => by rw [s3 c]; congr 1; exact (hv c).1
  have hflip : interpV g.size e'.flip (stencilOf deg dx g p'.x) = interpV g.size e.flip (stencilOf deg dx g p.x) := by
    rw [interpV_eq, interpV_eq]
    exact Finset.sum_congr rfl fun c _ => by rw [s3 c]; congr 1; exact (hv c).2
  have hB : interpB g.size e'.v (stencilOf deg dx g p'.x) p'.x = interpB g.size e.v (stencilOf deg dx g p.x) p.x := by
    rw [interpB_eq, interpB_eq]
    exact Finset.sum_congr rfl fun c _ => by rw [s3 c, s5 c]; congr 2; exact (hv c).1
  have hgrad : interpGrad g.size e'.v (stencilOf deg dx g p'.x) = interpGrad g.size e.v (stencilOf deg dx g p.x) := by
    rw [interpGrad_eq, interpGrad_eq]
    exact Finset.sum_congr rfl fun c _ => by rw [s4 c]; congr 1; exact (hv c).1
  simp only [handed, g2pTransfer, hpic, hflip, hB, hgrad, ← he, ← he']
  rw [hj]

/-- Moving a particle that was moved by cells keeps it moved by cells. -/
lemma position_moved (hper : S.L 0 = n * dx) (hpbc : S.pbc = true) (hcp : S.changePos = false)
    {p p' r : Particle (d + 2) K} (hpp : Moved dx n k p p') (hr : r.x = p.x) :
    Moved dx n k (positionParticle S.P false S.pbc S.changePos (S.L 0) dt r)
      (positionParticle S.P false S.pbc S.changePos (S.L 0) dt { r with x := p'.x }) := by
  obtain ⟨j, hj⟩ := hpp
  simp only [positionParticle, hpbc, hcp, if_true, Bool.false_eq_true, if_false]
  have hw : ∀ y : K, ∃ z : ℤ, wrapX (S.L 0) y = y + z * (n * dx) := by
    intro y
    rw [← hper]
    unfold wrapX
    split_ifs
    · exact ⟨-1, by push_cast; ring⟩
    · exact ⟨1, by push_cast; ring⟩
    · exact ⟨0, by push_cast; ring⟩
  have hx0 : p'.x 0 = p.x 0 + (k + j * n) * dx := by rw [hj]; simp
  have hxa : ∀ a ≠ 0, p'.x a = p.x a := fun a ha => by rw [hj]; simp [Function.update_of_ne ha]
  obtain ⟨z, hz⟩ := hw ((r.x + dt • r.pic) 0)
  obtain ⟨z', hz'⟩ := hw ((p'.x + dt • r.pic) 0)
  refine ⟨j + z' - z, ?_⟩
  congr 1
  funext a
  by_cases ha : a = 0
  · subst ha
    simp only [Function.update_self]
    rw [hz, hz', hr]
    simp only [Pi.add_apply, hx0]
    push_cast; ring
  · simp only [Function.update_of_ne ha, Pi.add_apply, hxa a ha, hr]

/-- **C121** The position of the seam of a periodic domain is invisible in a step without MUSL: if all particles are
moved by `k` cells along the periodic direction, and put back into the domain by whole periods, then the step gives
the same velocities, deformation gradients, and internal variables, and positions moved by `k` cells up to whole
periods. The period is a whole number `n ≥ 8` of cells, walls treat nodes alike that differ only along the periodic
direction, and the constitutive law does not look at the position. -/
theorem C121_step (hS : S.P = mkTransferParams deg dx fr false m vol) (h0 : 0 < dx)
    (hL : ∀ a, 0 ≤ S.L a) (hn : 8 ≤ n) (hper : S.L 0 = n * dx) (hg : remeshPeriodic dx S.L 4 = some g)
    (hpbc : S.pbc = true) (hcp : S.changePos = false) (hmusl : S.useMusl = false)
    (hbc : AlongX g bc bc)
    (hplast : ∀ p y, plast { p with x := y } = { plast p with x := y })
    (hd : InDomain dx S.L ps) (hd' : InDomain dx S.L ps') (hmv : List.Forall₂ (Moved dx n k) ps ps')
    (ht : threads.flatten.Perm (ps ++ ghosts dx (S.L 0) 4 ps))
    (ht' : threads'.flatten.Perm (ps' ++ ghosts dx (S.L 0) 4 ps')) :
    ∃ qs qs', stepOnGrid S dt grav bc plast g (ghosts dx (S.L 0) 4 ps) threads ps = some qs ∧
      stepOnGrid S dt grav bc plast g (ghosts dx (S.L 0) 4 ps') threads' ps' = some qs' ∧
      List.Forall₂ (Moved dx n k) qs qs' := by
  have hP : S.P.deg = deg := by rw [hS]; rfl
  have hP1 : S.P.oneOverDx = 1 / dx := by rw [hS]; rfl
  have hmibf : S.P.useMibf = false := by rw [hS]; rfl
  obtain ⟨hall, hreal⟩ := periodic_good h0 hL hn hper hg hd
  obtain ⟨hall', hreal'⟩ := periodic_good h0 hL hn hper hg hd'
  refine ⟨_, _, stepOnGrid_plain hP hP1 hmibf hmusl hreal hall ht,
    stepOnGrid_plain hP hP1 hmibf hmusl hreal' hall' ht', ?_⟩
  rw [List.forall₂_map_left_iff, List.forall₂_map_right_iff]
  refine (forall₂_with_mem hmv).imp ?_
  rintro p p' ⟨hp, hp', hpp⟩
  have hq := handed_moved (deg := deg) (dt := dt) (grav := grav) h0 hL hn hper hg hbc hd hd' hmv hp hp' hpp
  have e1 : ∀ all p, g2pParticle S.P false dt plast g.size (stepEuler S deg dx dt grav bc g all)
      (p, stencilOf deg dx g p.x) = plast (handed S deg dx dt grav bc g all p) := by
    intro all p
    simp only [g2pParticle, Bool.false_eq_true, if_false]
    rfl
  rw [e1, e1, hq, hplast (handed S deg dx dt grav bc g (ps ++ ghosts dx (S.L 0) 4 ps) p) p'.x]
  refine position_moved hper hpbc hcp hpp ?_
  have := congrArg Particle.x (hplast (handed S deg dx dt grav bc g (ps ++ ghosts dx (S.L 0) 4 ps) p) p.x)
  exact this

end step

/-! ### whole runs -/

section loop
variable {d : ℕ} {W : Type*} {C : TimeConfig d} {ph : Physics d W}

/-- Two runs end in the same way, with related final states. -/
inductive SameEnd (T : LoopState d W → LoopState d W → Prop) : Result d W → Result d W → Prop
  | refused {s s'} : T s s' → SameEnd T (.refused s) (.refused s')
  | finished {s s'} : T s s' → SameEnd T (.finished s) (.finished s')
  | failed {s s'} : T s s' → SameEnd T (.failed s) (.failed s')
  | ub : SameEnd T .ub .ub
  | outOfFuel {s s'} : T s s' → SameEnd T (.outOfFuel s) (.outOfFuel s')

/-- Two files of the same kind, frame, and time, with related worlds. -/
inductive SeamFile (σ : W → W → Prop) : Event W → Event W → Prop
  | info : SeamFile σ .info .info
  | particles {n t w w'} : σ w w' → SeamFile σ (.particles n t w) (.particles n t w')
  | grid {n t w w'} : σ w w' → SeamFile σ (.grid n t w) (.grid n t w')
  | timing {n} : SeamFile σ (.timing n) (.timing n)

/-- Two states of the main loop at the same time, with related worlds, which have written related files. -/
structure SameLoop (σ : W → W → Prop) (s s' : LoopState d W) : Prop where
  w : σ s.w s'.w
  time : s'.time = s.time
  frame : s'.frame = s.frame
  step : s'.step = s.step
  gravity : s'.gravity = s.gravity
  out : List.Forall₂ (SeamFile σ) s.out s'.out

lemma forall₂_snoc {α β : Type*} {R : α → β → Prop} {l : List α} {l' : List β} {m : List α} {m' : List β}
    (h : List.Forall₂ R l l') (hm : List.Forall₂ R m m') : List.Forall₂ R (l ++ m) (l' ++ m') := by
  induction h with
  | nil => exact hm
  | cons h _ ih => exact .cons h ih

lemma SameLoop.save {σ : W → W → Prop} {s s' : LoopState d W} (h : SameLoop σ s s') :
    SameLoop σ (saveFrame C s) (saveFrame C s') := by
  unfold saveFrame
  split_ifs
  · refine ⟨h.w, h.time, h.frame, h.step, h.gravity, ?_⟩
    simp only [h.time, h.frame]
    exact forall₂_snoc (forall₂_snoc h.out (.cons (.particles h.w) .nil)) (.cons (.grid h.w) .nil)
  · refine ⟨h.w, h.time, h.frame, h.step, h.gravity, ?_⟩
    simp only [h.time, h.frame, List.append_nil]
    exact forall₂_snoc h.out (.cons (.particles h.w) .nil)
  · exact h

lemma SameLoop.finish {σ : W → W → Prop} {s s' : LoopState d W} (h : SameLoop σ s s') :
    SameLoop σ (Verif.finish C s) (Verif.finish C s') := by
  unfold Verif.finish
  split_ifs
  · refine ⟨h.w, h.time, h.frame, h.step, h.gravity, ?_⟩
    simp only [h.step]
    exact forall₂_snoc h.out (.cons .timing .nil)
  · exact h

lemma SameLoop.endOfFrame {σ : W → W → Prop} {s s' : LoopState d W} (h : SameLoop σ s s') :
    SameLoop σ (Verif.endOfFrame C s) (Verif.endOfFrame C s') := by
  unfold Verif.endOfFrame
  rw [h.frame, h.time]
  split_ifs
  · exact SameLoop.save ⟨h.w, rfl, rfl, h.step, h.gravity, h.out⟩
  · exact h

/-- Two runs whose steps keep a relation between the worlds stay related. -/
lemma loop_same {gf : Fin d → ℝ} {σ : W → W → Prop} {s0 s0' : LoopState d W}
    (hvel : ∀ w w', σ w w' → ph.velocities w' = ph.velocities w)
    (hstep : ∀ k s s', Reach C ph gf s0 k s → Reach C ph gf s0' k s' → SameLoop σ s s' → ∀ dt g,
      Option.Rel (fun a b => σ a.1 b.1 ∧ a.2 = b.2) (ph.step s.w dt g s.time s.step) (ph.step s'.w dt g s.time s.step)) :
    ∀ (fuel k : ℕ) (s s' : LoopState d W), Reach C ph gf s0 k s → Reach C ph gf s0' k s' → SameLoop σ s s' →
      SameEnd (SameLoop σ) (loop C ph gf fuel s) (loop C ph gf fuel s') := by
  intro fuel
  induction fuel with
  | zero =>
    intro k s s' hr hr' h
    unfold loop
    rw [h.frame]
    split_ifs
    · exact .outOfFuel h
    · exact .finished h.finish
  | succ fuel ih =>
    intro k s s' hr hr' h
    unfold loop
    rw [h.frame]
    by_cases hlt : s.frame < C.endFrame
    swap
    · rw [if_neg hlt, if_neg hlt]
      exact .finished h.finish
    rw [if_pos hlt, if_pos hlt]
    have hlt' : s'.frame < C.endFrame := by rw [h.frame]; exact hlt
    have hb : loopBody C ph gf s' = loopBody C ph gf s' := rfl
    have key : (loopBody C ph gf s = .ub ∧ loopBody C ph gf s' = .ub) ∨
        (∃ t t', loopBody C ph gf s = .fail t ∧ loopBody C ph gf s' = .fail t' ∧ SameLoop σ t t') ∨
        (∃ t t', loopBody C ph gf s = .brk t ∧ loopBody C ph gf s' = .brk t' ∧ SameLoop σ t t') ∨
        (∃ t t', loopBody C ph gf s = .cont t ∧ loopBody C ph gf s' = .cont t' ∧ SameLoop σ t t') := by
      simp only [loopBody, h.frame, h.time, h.step, h.gravity, hvel _ _ h.w]
      cases hu : updateDt C gf s.frame s.time (ph.velocities s.w) s.gravity with
      | none => exact .inl ⟨rfl, rfl⟩
      | some r =>
        obtain ⟨dt, g⟩ := r
        have hst := hstep k s s' hr hr' h dt g
        simp only
        cases h1 : ph.step s.w dt g s.time s.step with
        | none =>
          rw [h1] at hst
          cases h2 : ph.step s'.w dt g s.time s.step with
          | none => exact .inl ⟨rfl, rfl⟩
          | some r' => rw [h2] at hst; cases hst
        | some r =>
          rw [h1] at hst
          cases h2 : ph.step s'.w dt g s.time s.step with
          | none => rw [h2] at hst; cases hst
          | some r' =>
            rw [h2] at hst
            cases hst with
            | some hst =>
              obtain ⟨w, ex⟩ := r
              obtain ⟨w', ex'⟩ := r'
              obtain ⟨hw, rfl⟩ : σ w w' ∧ ex = ex' := hst
              cases ex with
              | true =>
                exact .inr (.inl ⟨_, _, rfl, rfl, hw, rfl, rfl, rfl, rfl, h.out⟩)
              | false =>
                have hs1 : SameLoop σ (Verif.endOfFrame C
                    { s with w := w, gravity := g, time := s.time + dt, step := s.step + 1 })
                    (Verif.endOfFrame C
                    { s' with w := w', gravity := g, time := s.time + dt, step := s.step + 1 }) :=
                  SameLoop.endOfFrame ⟨hw, rfl, h.frame, rfl, rfl, h.out⟩
                have hframe := hs1.frame
                have htime := hs1.time
                simp only [h.frame] at hs1 htime ⊢
                rw [htime]
                split_ifs
                · exact .inr (.inr (.inl ⟨_, _, rfl, rfl, hs1.save⟩))
                · exact .inr (.inr (.inr ⟨_, _, rfl, rfl, hs1⟩))
    rcases key with ⟨h1, h2⟩ | ⟨t, t', h1, h2, h3⟩ | ⟨t, t', h1, h2, h3⟩ | ⟨t, t', h1, h2, h3⟩
    · rw [h1, h2]; exact .ub
    · rw [h1, h2]; exact .failed h3
    · rw [h1, h2]; exact .finished h3.finish
    · simp only [h1, h2]
      exact ih _ _ _ (hr.next hlt h1) (hr'.next hlt' h2) h3

end loop

section run
variable {d : ℕ} {R : Setup (d + 2)} {deg : Deg} {dx fr m vol : ℝ} {n : ℕ} {k : ℤ}

/-- The object is the same all along the periodic direction, like a horizontal ground. -/
def UniformX (o : GenObject (d + 2)) : Prop :=
  ∀ X c, (o.inside (Function.update X 0 c) ↔ o.inside X) ∧ o.normal (Function.update X 0 c) = o.normal X

lemma collideObjects_alongX {fr : ℝ → ℝ} {X X' : Fin (d + 2) → ℝ} (hX : ∀ a ≠ 0, X' a = X a) :
    ∀ (objs : List (GenObject (d + 2))) (v : Fin (d + 2) → ℝ), (∀ o ∈ objs, UniformX o) →
      collideObjects fr X' objs v = collideObjects fr X objs v := by
  have e : X' = Function.update X 0 (X' 0) := by
    funext a
    by_cases ha : a = 0
    · subst ha; simp
    · rw [Function.update_of_ne ha, hX a ha]
  intro objs
  induction objs with
  | nil => intro v _; rfl
  | cons o l ih =>
    intro v h
    have ho := h o (by simp) X (X' 0)
    rw [← e] at ho
    have hl := fun v => ih v fun o ho => h o (by simp [ho])
    simp only [collideObjects, List.foldl_cons] at hl ⊢
    rw [hl]
    congr 1
    by_cases hi : o.inside X
    · rw [if_pos hi, if_pos (ho.1.mpr hi), ho.2]
    · rw [if_neg hi, if_neg fun h => hi (ho.1.mp h)]

lemma walls_alongX {ops : PlateOps (d + 2)} {f f' : ℕ → ℝ} {dt : ℝ} {objs : List (GenObject (d + 2))}
    (h : ∀ o ∈ objs, UniformX o) (g : Axes (d + 2) ℝ) :
    AlongX g (boundaryCollision ops false f dt objs []) (boundaryCollision ops false f' dt objs []) := by
  intro i i' hi hi' hia v
  simp only [boundaryCollision, collidePlates, List.foldl_nil, wallFriction, Bool.false_eq_true, if_false]
  refine collideObjects_alongX (fun a ha => ?_) objs v h
  simp only [Pi.add_apply, nodeAt, hia a ha]

/-- The constitutive law does not look at the position. -/
lemma plasticUpdate_pos (dt : ℝ) (q : Particle (d + 2) ℝ) (y : Fin (d + 2) → ℝ) :
    plasticUpdate R dt { q with x := y } = (plasticUpdate R dt q).map fun r => ({ r.1 with x := y }, r.2) := by
  have e : ({ q with x := y } : Particle (d + 2) ℝ) = shiftP (y - q.x) q := by
    simp [shiftP]
  rw [e, plasticUpdate, plasticity_shift, plasticUpdate, Option.map_map, Option.map_map]
  cases h : plasticity R.cabs R.svd R.m dt q false with
  | none => rfl
  | some st =>
    have hx := (motion_plasticity h).1
    simp only [Option.map_some, Function.comp, shiftSt, shiftP]
    congr 2
    simp [hx]

/-- A periodic step without MUSL and plates, as one formula. -/
lemma physStep_plain {w : World (d + 2)} {g : Axes (d + 2) ℝ} {dt time : ℝ} {grav : Fin (d + 2) → ℝ} {stepNo : ℕ}
    (hP : R.S.P.deg = deg) (hP0 : R.S.P.dx = dx) (hP1 : R.S.P.oneOverDx = 1 / dx) (hmibf : R.S.P.useMibf = false)
    (hmusl : R.S.useMusl = false) (hpbc : R.S.pbc = true) (hpl : w.plates = [])
    (hsched : ∀ ps, (R.sched stepNo ps).flatten.Perm ps)
    (hbg : chooseGrid R.S ⟨w.ps, w.box, w.g, stepNo⟩ = some (w.box, g))
    (h : GoodGrid dx g w.ps) (ha : GoodGrid dx g (w.ps ++ ghosts dx (R.S.L 0) 4 w.ps)) :
    ∃ arr : GridArr (d + 2) ℝ,
    physStep R w dt grav time stepNo = (w.ps.mapM fun p => plasticUpdate R dt (handed R.S deg dx dt grav
        (boundaryCollision R.ops false (fun l => (arr l).friction) dt R.objs []) g
        (w.ps ++ ghosts dx (R.S.L 0) 4 w.ps) p)).map fun qs =>
      ({ ps := qs.map fun q => positionParticle R.S.P false R.S.pbc R.S.changePos (R.S.L 0) dt q.1
         box := w.box, g := g, plates := [], mass := fun l => (arr l).mass
         vel := (eulerUpdate R.S.P dt grav (boundaryCollision R.ops false (fun l => (arr l).friction) dt R.objs []) g arr).v
         friction := fun l => (arr l).friction }, qs.any (·.2)) := by
  have hP2G : P2G R.S.P g (R.sched stepNo (w.ps ++ ghosts dx (R.S.L 0) 4 w.ps)) =
      some (p2gFinish R.S.P (raw R.S.P deg dx g (w.ps ++ ghosts dx (R.S.L 0) 4 w.ps))) := by
    rw [P2G_eq hP hP1 (ha.perm (hsched _)), raw_perm (hsched _)]
  have hst := withStencilsG2P_eq hP hP1 h
  refine ⟨p2gFinish R.S.P (raw R.S.P deg dx g (w.ps ++ ghosts dx (R.S.L 0) 4 w.ps)), ?_⟩
  rw [physStep_eq, hbg, Option.bind_some]
  simp only [hpbc, if_true, hP0, hP2G, hmibf, Bool.false_eq_true, false_and, if_false, Option.bind_some, afterP2G,
    g2pFull, hst, Option.bind_eq_bind, hmusl, hpl, List.map_nil, List.mapM_map]
  have e : (g2pFullParticle R dt g.size (eulerUpdate R.S.P dt grav (boundaryCollision R.ops false
      (fun l => (p2gFinish R.S.P (raw R.S.P deg dx g (w.ps ++ ghosts dx (R.S.L 0) 4 w.ps)) l).friction) dt R.objs []) g
      (p2gFinish R.S.P (raw R.S.P deg dx g (w.ps ++ ghosts dx (R.S.L 0) 4 w.ps)))) ∘
        fun p => (p, stencilOf deg dx g p.x)) =
      fun p => plasticUpdate R dt (handed R.S deg dx dt grav (boundaryCollision R.ops false
        (fun l => (p2gFinish R.S.P (raw R.S.P deg dx g (w.ps ++ ghosts dx (R.S.L 0) 4 w.ps)) l).friction) dt R.objs []) g
        (w.ps ++ ghosts dx (R.S.L 0) 4 w.ps) p) := by
    funext p
    simp only [g2pFullParticle, hmusl, Bool.false_eq_true, if_false, Function.comp]
    rfl
  rw [e]
  cases (w.ps.mapM fun p => plasticUpdate R dt (handed R.S deg dx dt grav (boundaryCollision R.ops false
    (fun l => (p2gFinish R.S.P (raw R.S.P deg dx g (w.ps ++ ghosts dx (R.S.L 0) 4 w.ps)) l).friction) dt R.objs []) g
    (w.ps ++ ghosts dx (R.S.L 0) 4 w.ps) p)) <;> rfl

/-- Applying related functions to related lists. -/
lemma mapM_rel {α α' β β' : Type*} {f : α → Option β} {f' : α' → Option β'} {A : α → α' → Prop} {B : β → β' → Prop}
    {l : List α} {l' : List α'} (h : List.Forall₂ A l l') (hf : ∀ a a', A a a' → Option.Rel B (f a) (f' a')) :
    Option.Rel (List.Forall₂ B) (l.mapM f) (l'.mapM f') := by
  induction h with
  | nil => exact .some .nil
  | @cons a a' l l' h t ih =>
    rw [List.mapM_cons, List.mapM_cons]
    have h1 := hf a a' h
    cases e : f a with
    | none =>
      rw [e] at h1
      cases e' : f' a' with
      | none => exact .none
      | some b' => rw [e'] at h1; cases h1
    | some b =>
      rw [e] at h1
      cases e' : f' a' with
      | none => rw [e'] at h1; cases h1
      | some b' =>
        rw [e'] at h1
        cases h1 with
        | some hb =>
          cases e2 : l.mapM f with
          | none =>
            rw [e2] at ih
            cases e2' : l'.mapM f' with
            | none => exact .none
            | some b' => rw [e2'] at ih; cases ih
          | some r =>
            rw [e2] at ih
            cases e2' : l'.mapM f' with
            | none => rw [e2'] at ih; cases ih
            | some r' =>
              rw [e2'] at ih
              cases ih with
              | some hr => exact .some (.cons hb hr)

/-- The grid of a periodic run is built in the first step and then kept. -/
lemma physStep_grid {w w' : World (d + 2)} {dt time : ℝ} {grav : Fin (d + 2) → ℝ} {stepNo : ℕ} {ex : Bool}
    (hpbc : R.S.pbc = true) (h : physStep R w dt grav time stepNo = some (w', ex)) :
    if stepNo = 0 then remeshPeriodic R.S.P.dx R.S.L 4 = some w'.g else w'.g = w.g := by
  obtain ⟨fr', ha⟩ := physStep_advance h
  simp only [advanceStep, hpbc, if_true, Option.bind_eq_bind, Option.bind_eq_some_iff] at ha
  obtain ⟨bg, hbg, qs, hqs, hσ⟩ := ha
  injection hσ with hσ
  injection hσ with hps _ hgg _
  simp only [chooseGrid, hpbc, if_true] at hbg
  split_ifs at hbg ⊢ with h0
  · obtain ⟨g, hg, rfl⟩ := Option.map_eq_some_iff.mp hbg
    rw [hg, ← hgg]
  · rw [← hgg, ← Option.some.inj hbg]

/-- The worlds of two periodic runs whose particles are moved by `k` cells. -/
structure MovedWorld (dx : ℝ) (n : ℕ) (k : ℤ) (w w' : World (d + 2)) : Prop where
  ps : List.Forall₂ (Moved dx n k) w.ps w'.ps
  plates : w.plates = [] ∧ w'.plates = []

/-- **C121** The position of the seam of a periodic domain is invisible in a run without MUSL: start the same set-up
twice, the second time with all particles moved by `k` cells along the periodic direction and put back by whole
periods. Both runs end in the same way, take the same steps, write the same files at the same times, and in every file
the particles differ only by `k` cells and whole periods. As long as the particles of both runs are in the domain, in
the first direction strictly below the period (see `C25_edge_false`). The obstacles are the same all along the
periodic direction; there are no plates. -/
theorem C121_run {i e : Bool} {fuel : ℕ} {s s' : LoopState (d + 2) (World (d + 2))}
    (hS : R.S.P = mkTransferParams deg dx fr false m vol) (h0 : 0 < dx)
    (hL : ∀ a, 0 ≤ R.S.L a) (hn : 8 ≤ n) (hper : R.S.L 0 = n * dx)
    (hpbc : R.S.pbc = true) (hcp : R.S.changePos = false) (hmusl : R.S.useMusl = false)
    (hobj : ∀ o ∈ R.objs, UniformX o) (hsched : ∀ k ps, (R.sched k ps).flatten.Perm ps)
    (hfresh : s.step = 0) (hstart : SameLoop (MovedWorld dx n k) s s')
    (hdom : ∀ j t, Reach R.C (physics R) s.gravity (begin R s) j t → InDomain dx R.S.L t.w.ps)
    (hdom' : ∀ j t, Reach R.C (physics R) s'.gravity (begin R s') j t → InDomain dx R.S.L t.w.ps) :
    SameEnd (SameLoop (MovedWorld dx n k)) (runProgram R i e fuel s) (runProgram R i e fuel s') := by
  have hP : R.S.P.deg = deg := by rw [hS]; rfl
  have hP0 : R.S.P.dx = dx := by rw [hS]; rfl
  have hP1 : R.S.P.oneOverDx = 1 / dx := by rw [hS]; rfl
  have hmibf : R.S.P.useMibf = false := by rw [hS]; rfl
  obtain ⟨g, hg, -⟩ := periodic_grid (d := d) h0 hL
  have hfill : ∀ w : World (d + 2), fillMuI R.m R.S.P.useMibf w = w := fun w => by rw [fillMuI, hmibf]; simp
  have hgrid : ∀ s : LoopState (d + 2) (World (d + 2)), s.step = 0 →
      ∀ j t, Reach R.C (physics R) s.gravity (begin R s) j t → (t.step ≠ 0 → t.w.g = g) := by
    intro s hs j t hr
    refine reach_inv (Inv := fun w _ k _ => k ≠ 0 → w.g = g) ?_ ?_ hr
    · rw [begin_step, hs]; exact fun h => absurd rfl h
    · intro k s1 dt gr w hst hi _
      have hgr := physStep_grid hpbc hst.2.2.2
      split_ifs at hgr with hz
      · rw [hP0, hg] at hgr
        exact (Option.some.inj hgr).symm
      · rw [hgr]; exact hi hz
  have hchoose : ∀ (w : World (d + 2)) (j : ℕ), (j ≠ 0 → w.g = g) →
      chooseGrid R.S ⟨w.ps, w.box, w.g, j⟩ = some (w.box, g) := by
    intro w j hw
    simp only [chooseGrid, hpbc, if_true, hP0]
    split_ifs with hz
    · rw [hg]; rfl
    · rw [hw hz]
  have hbegin : SameLoop (MovedWorld dx n k) (begin R s) (begin R s') := by
    have hw := hstart.w
    simp only [begin, startState, hfill]
    split_ifs
    · exact ⟨hw, rfl, rfl, hstart.step, hstart.gravity,
        forall₂_snoc hstart.out (.cons .info (.cons (.particles hw) .nil))⟩
    · exact ⟨hw, rfl, rfl, hstart.step, hstart.gravity, hstart.out⟩
  have hvel : ∀ w w', MovedWorld dx n k w w' → (physics R).velocities w' = (physics R).velocities w := by
    rintro w w' ⟨h, -⟩
    show w'.ps.map (fun p => p.v) = w.ps.map fun p => p.v
    revert h
    generalize w.ps = l
    generalize w'.ps = l'
    intro h
    induction h with
    | nil => rfl
    | cons h _ ih =>
      obtain ⟨j, rfl⟩ := h
      simp only [List.map_cons, ih]
  unfold runProgram
  by_cases ha : accepted i R.m.elastic R.m.plastic e = true
  swap
  · rw [if_neg ha, if_neg ha]
    exact .refused hstart
  rw [if_pos ha, if_pos ha, simulate_eq ha, simulate_eq ha]
  have hgr := hstart.gravity
  show SameEnd _ (loop R.C (physics R) s.gravity fuel (begin R s)) (loop R.C (physics R) s'.gravity fuel (begin R s'))
  rw [hgr] at hdom' ⊢
  refine loop_same hvel ?_ fuel 0 _ _ .start .start hbegin
  intro j t t' hr hr' hst dt gr
  have hd := hdom j t hr
  have hd' := hdom' j t' hr'
  have hg1 := hgrid s hfresh j t hr
  have hg2 := hgrid s' (hstart.step.trans hfresh) j t' (by rw [hgr]; exact hr')
  rw [hst.step] at hg2
  obtain ⟨hall, hreal⟩ := periodic_good h0 hL hn hper hg hd
  obtain ⟨hall', hreal'⟩ := periodic_good h0 hL hn hper hg hd'
  obtain ⟨arr, e1⟩ := physStep_plain (dt := dt) (time := t.time) (grav := gr) hP hP0 hP1 hmibf hmusl hpbc
    hst.w.plates.1 (hsched t.step) (hchoose t.w t.step hg1) hreal hall
  obtain ⟨arr', e2⟩ := physStep_plain (dt := dt) (time := t.time) (grav := gr) hP hP0 hP1 hmibf hmusl hpbc
    hst.w.plates.2 (hsched t.step) (hchoose t'.w t.step hg2) hreal' hall'
  show Option.Rel _ (physStep R t.w dt gr t.time t.step) (physStep R t'.w dt gr t.time t.step)
  rw [e1, e2]
  have hrel := mapM_rel (B := fun a b => Moved dx n k
      (positionParticle R.S.P false R.S.pbc R.S.changePos (R.S.L 0) dt a.1)
      (positionParticle R.S.P false R.S.pbc R.S.changePos (R.S.L 0) dt b.1) ∧ a.2 = b.2)
    (f := fun p => plasticUpdate R dt (handed R.S deg dx dt gr
        (boundaryCollision R.ops false (fun l => (arr l).friction) dt R.objs []) g
        (t.w.ps ++ ghosts dx (R.S.L 0) 4 t.w.ps) p))
    (f' := fun p => plasticUpdate R dt (handed R.S deg dx dt gr
        (boundaryCollision R.ops false (fun l => (arr' l).friction) dt R.objs []) g
        (t'.w.ps ++ ghosts dx (R.S.L 0) 4 t'.w.ps) p))
    (forall₂_with_mem hst.w.ps) (by
      rintro p p' ⟨hp, hp', hpp⟩
      have hq := handed_moved (deg := deg) (dt := dt) (grav := gr) h0 hL hn hper hg
        (walls_alongX (ops := R.ops) (f := fun l => (arr l).friction) (f' := fun l => (arr' l).friction) (dt := dt) hobj g)
        hd hd' hst.w.ps hp hp' hpp
      simp only [hq, plasticUpdate_pos]
      cases hu : plasticUpdate R dt (handed R.S deg dx dt gr
        (boundaryCollision R.ops false (fun l => (arr l).friction) dt R.objs []) g
        (t.w.ps ++ ghosts dx (R.S.L 0) 4 t.w.ps) p) with
      | none => exact .none
      | some r =>
        refine .some ⟨position_moved hper hpbc hcp hpp ?_, rfl⟩
        have := (plastTotal_keeps R dt).x (handed R.S deg dx dt gr
          (boundaryCollision R.ops false (fun l => (arr l).friction) dt R.objs []) g
          (t.w.ps ++ ghosts dx (R.S.L 0) 4 t.w.ps) p)
        rw [plastTotal_eq hu] at this
        exact this)
  revert hrel
  generalize (t.w.ps.mapM fun p => plasticUpdate R dt (handed R.S deg dx dt gr
        (boundaryCollision R.ops false (fun l => (arr l).friction) dt R.objs []) g
        (t.w.ps ++ ghosts dx (R.S.L 0) 4 t.w.ps) p)) = A
  generalize (t'.w.ps.mapM fun p => plasticUpdate R dt (handed R.S deg dx dt gr
        (boundaryCollision R.ops false (fun l => (arr' l).friction) dt R.objs []) g
        (t'.w.ps ++ ghosts dx (R.S.L 0) 4 t'.w.ps) p)) = B
  intro hrel
  cases hrel with
  | none => exact .none
  | some hl =>
    refine .some ⟨⟨?_, rfl, rfl⟩, ?_⟩
    · simp only
      rw [List.forall₂_map_left_iff, List.forall₂_map_right_iff]
      exact hl.imp fun _ _ h => h.1
    · simp only
      induction hl with
      | nil => rfl
      | cons h _ ih => rw [List.any_cons, List.any_cons, ih, h.2]

end run

namespace SeamEx
open PerEx

/-- The pair of `PerEx.pair` moved by four cells: the particle at 15/2 has crossed the seam. -/
def moved : List (Particle 2 ℚ) :=
  [{ Particle.init with x := ![9/2, 2], v := ![1, 0] }, { Particle.init with x := ![7/2, 2], v := ![1, 0] }]

lemma moved_dom : InDomain 1 ![8, 4] moved where
  x p hp := by
    simp only [moved, List.mem_cons, List.not_mem_nil, or_false] at hp
    rcases hp with rfl | rfl <;> constructor <;> norm_num
  y p hp := by
    simp only [moved, List.mem_cons, List.not_mem_nil, or_false] at hp
    rcases hp with rfl | rfl <;> constructor <;> norm_num
  z p hp a h0 h1 := by fin_cases a <;> simp_all

lemma pair_moved : List.Forall₂ (Moved (d := 0) (1 : ℚ) 8 4) pair moved := by
  have e1 : (![9/2, 2] : Fin 2 → ℚ) = Function.update ![1/2, 2] 0 (1/2 + (((4 : ℤ) : ℚ) + ((0 : ℤ) : ℚ) * ((8 : ℕ) : ℚ)) * 1) := by
    funext a; fin_cases a
    · simp; norm_num
    · rfl
  have e2 : (![7/2, 2] : Fin 2 → ℚ) = Function.update ![15/2, 2] 0 (15/2 + (((4 : ℤ) : ℚ) + ((-1 : ℤ) : ℚ) * ((8 : ℕ) : ℚ)) * 1) := by
    funext a; fin_cases a
    · simp; norm_num
    · rfl
  unfold moved
  rw [e1, e2]
  exact .cons ⟨0, rfl⟩ (.cons ⟨-1, rfl⟩ .nil)

set_option maxRecDepth 100000 in
lemma moved_weights : NoTinyWeights .two (1 : ℚ) grid moved := by
  have key : ∀ p ∈ moved, ∀ i0 < 19, ∀ i1 < 11,
      shape .two (1 : ℚ) (nodeAt grid ![i0, i1]) p.x = 0 ∨
        1 / 10 ^ 25 < shape .two (1 : ℚ) (nodeAt grid ![i0, i1]) p.x := by decide +kernel
  intro p hp i hi
  have h0 : i 0 < 19 := hi 0
  have h1 : i 1 < 11 := hi 1
  have : i = ![i 0, i 1] := by funext a; fin_cases a <;> rfl
  rw [this]
  exact key p hp _ h0 _ h1

/-- The hypotheses of `C121_step`, with a stress law and a wall at the bottom. -/
example (tau : Matrix (Fin 2) (Fin 2) ℚ) :=
  C121_step (S := { muslParams with useMusl := false }) (deg := .two) (dx := 1) (fr := -2) (m := 1) (vol := 1) (n := 8)
    (k := 4) (dt := 1 / 10) (grav := ![1, -10]) (g := grid)
    (bc := fun _ X v => if X 1 ≤ 0 then 0 else v) (plast := fun p => { p with tau := tau * p.F }) (ps := pair)
    (ps' := moved) (threads := [pair ++ ghosts 1 8 4 pair]) (threads' := [moved, ghosts 1 8 4 moved]) rfl one_pos pairL
    le_rfl (by norm_num [muslParams]) grid_eq rfl rfl rfl
    (fun i i' _ _ h v => by have := h 1 (by decide); simp only [nodeAt, this]; rfl)
    (fun _ _ => rfl) pair_dom moved_dom pair_moved (by simp [muslParams]) (by simp [muslParams])

/-- Far from the seam the pair is not stretched, with MUSL. -/
lemma moved_musl :
    ∃ q1 q2, stepOnGrid muslParams (1 / 10) 0 (fun _ _ v => v) id grid (ghosts 1 8 4 moved)
      [moved ++ ghosts 1 8 4 moved] moved = some [q1, q2] ∧ q1.v = ![1, 0] ∧ q2.v = ![1, 0] ∧ q1.F 0 0 = 1 := by
  have hu : ∀ p ∈ moved, p.v = ![1, 0] ∧ p.Bmat = 0 ∧ p.tau = 0 ∧ p.F = 1 := by
    intro p hp
    simp only [moved, List.mem_cons, List.not_mem_nil, or_false] at hp
    rcases hp with rfl | rfl <;> exact ⟨rfl, rfl, rfl, rfl⟩
  have hL : ∀ a : Fin 2, 0 ≤ (![8, 4] : Fin 2 → ℚ) a := by
    intro a; fin_cases a <;> norm_num
  obtain ⟨hall, hreal⟩ := periodic_good (n := 8) one_pos hL le_rfl (by norm_num) grid_eq moved_dom
  have hL0 : (![8, 4] : Fin 2 → ℚ) 0 = 8 := rfl
  rw [hL0] at hall
  obtain ⟨F, hF, hF2⟩ := stepOnGrid_ghosts (S := muslParams) (deg := .two) (dx := 1) (dt := 1 / 10) (grav := 0)
    (bc := fun _ _ v => v) (plast := id) (threads := [moved ++ ghosts 1 8 4 moved]) (ghs := ghosts 1 8 4 moved)
    rfl rfl rfl hreal hall (by simp) ⟨fun _ => rfl, fun _ => rfl, fun _ => rfl, fun _ => rfl, fun _ => rfl⟩
  have hforall : ∀ (C : Particle 2 ℚ → Prop), (∀ p y, C p → C { p with x := y }) → (∀ p ∈ moved, C p) →
      ∀ p ∈ moved ++ ghosts 1 8 4 moved, C p := by
    intro C hC h p hp
    rcases List.mem_append.mp hp with hp | hp
    · exact h p hp
    · obtain ⟨p', hp', y, rfl⟩ := ghosts_mem hp
      exact hC _ _ (h p' hp')
  have huni := fun p hp => uniform_ghosts (S := muslParams) (deg := .two) (dt := 1 / 10) (grav := 0)
    (bc := fun _ _ v => v) (p := p) one_pos
    hreal moved_weights (fun p hp => List.mem_append_left _ hp) hall (fun _ _ _ => rfl) (c := ![1, 0])
    (hforall (fun p => p.v = ![1, 0]) (fun _ _ h => h) fun p hp => (hu p hp).1)
    (hforall (fun p => p.Bmat = 0) (fun _ _ h => h) fun p hp => (hu p hp).2.1)
    (hforall (fun p => p.tau = 0) (fun _ _ h => h) fun p hp => (hu p hp).2.2.1) hp
  have hvel : ∀ p ∈ moved, (F p).v = ![1, 0] := by
    intro p hp
    rw [(hF2 p hp).1, (huni p hp).2.2.1]
    simp
  refine ⟨_, _, hF, hvel _ (by simp [moved]), hvel _ (by simp [moved]), ?_⟩
  set p1 : Particle 2 ℚ := { Particle.init with x := ![9/2, 2], v := ![1, 0] } with hp1
  have hmem : p1 ∈ moved := by simp [moved, hp1]
  obtain ⟨-, -, -, -, r, hrF, -, -, hr⟩ := hF2 p1 hmem
  rw [hrF, id, hr, (hu p1 hmem).2.2.2]
  have hgv : ∀ i, IsNode grid i →
      gradVelG muslParams .two 1 (1 / 10) 0 (fun _ _ v => v) grid (moved ++ ghosts 1 8 4 moved) moved
        (flatIndex grid.size i) 0 =
      if PerEx.massAt (moved ++ ghosts 1 8 4 moved) i > 0 then
        (PerEx.massAt (moved ++ ghosts 1 8 4 moved) i)⁻¹ * PerEx.massAt moved i else 0 := by
    intro i hi
    have hup := raw_uniform (P := muslParams.P) (deg := .two) (dx := 1) (g := grid)
      (ps := moved.map fun p =>
        let q := g2pTransfer muslParams.P grid.size (stepEuler muslParams .two 1 (1 / 10) 0 (fun _ _ v => v) grid
          (moved ++ ghosts 1 8 4 moved)) p (stencilOf .two 1 grid p.x)
        { q with v := blendVelocity muslParams.P q }) (c := ![1, 0])
      (by
        intro p hp
        obtain ⟨p', hp', rfl⟩ := List.mem_map.mp hp
        exact ((huni p' hp').2.2.1).trans (by simp))
      (by
        intro _ p hp
        obtain ⟨p', hp', rfl⟩ := List.mem_map.mp hp
        exact (huni p' hp').2.2.2) (flatIndex grid.size i)
    simp only [gradVelG, show muslParams.useMusl = true from rfl, if_true, muslFinish, finish_mass]
    rw [PerEx.massAt_eq hall hi]
    have hone : muslParams.P.particleMass = 1 := rfl
    rw [hone, mul_one, div_one]
    by_cases hM : PerEx.massAt (moved ++ ghosts 1 8 4 moved) i > 0
    · rw [if_pos hM, if_pos hM, Pi.smul_apply, smul_eq_mul]
      congr 1
      refine (congrFun hup 0).trans ?_
      have hgm : ∀ f : Particle 2 ℚ → Particle 2 ℚ, (∀ p, (f p).x = p.x) →
          (raw muslParams.P .two 1 grid (moved.map f) (flatIndex grid.size i)).mass = PerEx.massAt moved i := by
        intro f hf
        rw [PerEx.massAt_eq (hreal.map fun p hp => hf p) hi]
        simp [PerEx.massAt, Function.comp_def, hf]
      refine (congrArg (fun z : ℚ => (z • (![1, 0] : Fin 2 → ℚ)) 0) (hgm _ ?_)).trans ?_
      · intro p; rfl
      · simp
    · rw [if_neg hM, if_neg hM]; rfl
  rw [trialF, interpGrad_eq]
  have hsum : (∑ c, vecMulVec (gradVelG muslParams .two 1 (1 / 10) 0 (fun _ _ v => v) grid
      (moved ++ ghosts 1 8 4 moved) moved (flatIndex grid.size ((stencilOf .two 1 grid p1.x).node c)))
      ((stencilOf .two 1 grid p1.x).weightGrad c)) 0 0 = 0 := by
    rw [Matrix.sum_apply]
    have hrew : ∀ c ∈ Finset.univ, (vecMulVec (gradVelG muslParams .two 1 (1 / 10) 0 (fun _ _ v => v) grid
        (moved ++ ghosts 1 8 4 moved) moved (flatIndex grid.size ((stencilOf .two 1 grid p1.x).node c)))
        ((stencilOf .two 1 grid p1.x).weightGrad c)) 0 0 =
        (if PerEx.massAt (moved ++ ghosts 1 8 4 moved) ((stencilOf .two 1 grid p1.x).node c) > 0 then
          (PerEx.massAt (moved ++ ghosts 1 8 4 moved) ((stencilOf .two 1 grid p1.x).node c))⁻¹ *
            PerEx.massAt moved ((stencilOf .two 1 grid p1.x).node c) else 0) *
          (stencilOf .two 1 grid p1.x).weightGrad c 0 := by
      intro c _
      rw [vecMulVec_apply, hgv _ ((hreal.good (deg := .two) hmem).ok.node_lt c)]
    refine (Finset.sum_congr rfl hrew).trans ?_
    decide +kernel
  have hmul : ∀ A : Matrix (Fin 2) (Fin 2) ℚ, ((1 : Matrix (Fin 2) (Fin 2) ℚ) + (1 / 10 : ℚ) • (A * (1 : Matrix (Fin 2) (Fin 2) ℚ))) 0 0 = 1 + 1 / 10 * A 0 0 := by
    intro A; simp
  refine (hmul _).trans ?_
  rw [hsum]; norm_num

end SeamEx

open PerEx SeamEx in
/-- **C121** With MUSL the position of the seam is visible: two particles that move with the same velocity, without
gravity, stress, or walls, are stretched by 5 percent in one step if the seam is between them, and not at all if it is
four cells away. -/
theorem C121_musl_false :
    remeshPeriodic (1 : ℚ) (![8, 4] : Fin 2 → ℚ) 4 = some grid ∧ InDomain 1 ![8, 4] pair ∧ InDomain 1 ![8, 4] moved ∧
    List.Forall₂ (Moved (d := 0) (1 : ℚ) 8 4) pair moved ∧
    ∃ q1 q2 q1' q2', stepOnGrid muslParams (1 / 10) 0 (fun _ _ v => v) id grid (ghosts 1 8 4 pair)
        [pair ++ ghosts 1 8 4 pair] pair = some [q1, q2] ∧
      stepOnGrid muslParams (1 / 10) 0 (fun _ _ v => v) id grid (ghosts 1 8 4 moved)
        [moved ++ ghosts 1 8 4 moved] moved = some [q1', q2'] ∧
      q1.F 0 0 = 21 / 20 ∧ q1'.F 0 0 = 1 := by
  obtain ⟨h1, h2, -, -, q1, q2, h3, -, -, h4⟩ := C67_free_fall_false
  obtain ⟨q1', q2', h5, -, -, h6⟩ := moved_musl
  exact ⟨h1, h2, moved_dom, pair_moved, q1, q2, q1', q2', h3, h5, h4, h6⟩

namespace SeamEx

/-- The horizontal floor is the same all along the periodic direction. -/
lemma ground_uniform {d : ℕ} (y : ℝ) (junk : Fin (d + 2) → ℝ) (bc : BC) (fr : ℝ) :
    UniformX (objectGround y junk bc fr) := by
  intro X c
  refine ⟨?_, rfl⟩
  show ¬ (Function.update X 0 c 1 > y) ↔ ¬ (X 1 > y)
  rw [Function.update_of_ne (by simp)]

section
open RunEx

/-- The set-up of `RunEx.perSetup` without MUSL and with a floor. -/
noncomputable def floorSetup : Setup 2 := { perSetup false with objs := [objectGround 1 0 .slipStick (1 / 2)] }

/-- The two particles of `RunEx.seam`, moved by three cells. -/
noncomputable def seam3 : List (Particle 2 ℝ) :=
  [{ Particle.init with x := ![3, 2] }, { Particle.init with x := ![2, 2], F := diagonal ![Real.exp 1, Real.exp (-1)] }]

lemma seam3_dom : InDomain 1 ![8, 4] seam3 where
  x p hp := by
    simp only [seam3, List.mem_cons, List.not_mem_nil, or_false] at hp
    rcases hp with rfl | rfl <;> constructor <;> norm_num
  y p hp := by
    simp only [seam3, List.mem_cons, List.not_mem_nil, or_false] at hp
    rcases hp with rfl | rfl <;> constructor <;> norm_num
  z p hp a h0 h1 := by fin_cases a <;> simp_all

lemma seam_moved : List.Forall₂ (Moved (d := 0) (1 : ℝ) 8 3) seam seam3 := by
  have e1 : (![3, 2] : Fin 2 → ℝ) = Function.update ![0, 2] 0 (0 + (((3 : ℤ) : ℝ) + ((0 : ℤ) : ℝ) * ((8 : ℕ) : ℝ)) * 1) := by
    funext a; fin_cases a
    · simp
    · rfl
  have e2 : (![2, 2] : Fin 2 → ℝ) = Function.update ![7, 2] 0 (7 + (((3 : ℤ) : ℝ) + ((-1 : ℤ) : ℝ) * ((8 : ℕ) : ℝ)) * 1) := by
    funext a; fin_cases a
    · simp; norm_num
    · rfl
  unfold seam3
  rw [e1, e2]
  exact .cons ⟨0, rfl⟩ (.cons ⟨-1, rfl⟩ .nil)

/-- The hypotheses of `C121_run`. -/
example : SameEnd (SameLoop (MovedWorld 1 8 3)) (runProgram floorSetup true false 10 (start seam ![1, -10]))
    (runProgram floorSetup true false 10 (start seam3 ![1, -10])) := by
  have hdom : ∀ ps : List (Particle 2 ℝ), ps ≠ [] → (∀ p ∈ ps, p.v = 0) → InDomain 1 ![8, 4] ps →
      ∀ j t, Reach floorSetup.C (physics floorSetup) ![1, -10] (begin floorSetup (start ps ![1, -10])) j t →
        InDomain 1 ![8, 4] t.w.ps := by
    intro ps hne hv hd j t hr
    have hk := only_begin_of (R := floorSetup) rfl hne hv _ j t hr
    subst hk
    cases hr
    have : (begin floorSetup (start ps ![1, -10])).w = (start ps ![1, -10]).w := by
      rw [begin_w]; simp [fillMuI, floorSetup, perSetup, mkTransferParams]
    rw [this]
    exact hd
  refine C121_run (d := 0) (R := floorSetup) (deg := .two) (dx := 1) (fr := -19 / 20) (m := 3) (vol := 1) (n := 8) (k := 3) rfl one_pos perL
    le_rfl (by norm_num [floorSetup, perSetup]) rfl rfl rfl ?_ (fun _ _ => by simp [floorSetup, perSetup]) rfl ?_
    (hdom seam (by simp [seam]) seam_rest seam_dom)
    (hdom seam3 (by simp [seam3]) (by simp [seam3, Particle.init]) seam3_dom)
  · intro o ho
    obtain rfl := List.mem_singleton.mp ho
    exact ground_uniform _ _ _ _
  · exact ⟨⟨seam_moved, rfl, rfl⟩, rfl, rfl, rfl, rfl, .nil⟩

end

end SeamEx
end Verif.Props
