import Verif.Lemmas.Crossing
import Verif.Props.Examples

set_option linter.unusedSectionVars false
set_option linter.unusedSimpArgs false
set_option linter.unusedVariables false

/-!
# C120: Particles may cross cell boundaries without causing jumps on the grid
-/

namespace Verif.Props
open Verif Matrix

variable {d : ℕ} {deg : Deg} {dx fr m vol : ℝ} {mibf : Bool} {g : Axes d ℝ}

/-- The same particles, each displaced by at most `η` (sum over the axes). -/
def Displaced (η : ℝ) (ps ps' : List (Particle d ℝ)) : Prop :=
  List.Forall₂ (fun p p' => p' = { p with x := p'.x } ∧ ∑ a, |p.x a - p'.x a| ≤ η) ps ps'

/-- Sums over the particles near a node, one of them dropping out only if its term is small. -/
lemma sum_near_lip {P : Particle d ℝ → Particle d ℝ → Prop} {ps ps' : List (Particle d ℝ)} (h : List.Forall₂ P ps ps')
    (X : Fin d → ℝ) (f : Particle d ℝ → ℝ) (e : Particle d ℝ → ℝ)
    (hf : ∀ p p', P p p' → |f p - f p'| ≤ e p)
    (h1 : ∀ p p', P p p' → shape deg dx X p'.x ≤ 1 / 10 ^ 25 → |f p| ≤ e p)
    (h2 : ∀ p p', P p p' → shape deg dx X p.x ≤ 1 / 10 ^ 25 → |f p'| ≤ e p)
    (he : ∀ p p', P p p' → 0 ≤ e p) :
    |((ps.filter fun p => 1 / 10 ^ 25 < shape deg dx X p.x).map f).sum -
      ((ps'.filter fun p => 1 / 10 ^ 25 < shape deg dx X p.x).map f).sum| ≤ (ps.map e).sum := by
  induction h with
  | nil => simp
  | @cons p p' ps ps' hp _ ih =>
    rw [List.filter_cons, List.filter_cons, List.map_cons, List.sum_cons]
    have ha := hf p p' hp
    have hb := h1 p p' hp
    have hc := h2 p p' hp
    have h0 := he p p' hp
    rw [abs_le] at ih ⊢
    by_cases c1 : 1 / 10 ^ 25 < shape deg dx X p.x <;> by_cases c2 : 1 / 10 ^ 25 < shape deg dx X p'.x
    · rw [if_pos (by simpa using c1), if_pos (by simpa using c2), List.map_cons, List.sum_cons, List.map_cons,
        List.sum_cons]
      rw [abs_le] at ha
      constructor <;> linarith
    · have := hb (not_lt.mp c2)
      rw [if_pos (by simpa using c1), if_neg (by simpa using c2), List.map_cons, List.sum_cons]
      rw [abs_le] at this
      constructor <;> linarith
    · have := hc (not_lt.mp c1)
      rw [if_neg (by simpa using c1), if_pos (by simpa using c2), List.map_cons, List.sum_cons]
      rw [abs_le] at this
      constructor <;> linarith
    · rw [if_neg (by simpa using c1), if_neg (by simpa using c2)]
      constructor <;> linarith

variable {threads threads' : List (List (Particle d ℝ))} {arr arr' : ℕ → Cell d ℝ} {η : ℝ}

lemma Displaced.dist {ps ps' : List (Particle d ℝ)} (h : Displaced η ps ps') :
    List.Forall₂ (fun p p' => p' = { p with x := p'.x } ∧ dist1 p.x p'.x ≤ η) ps ps' := h

section lip
variable (h : GoodGrid dx g threads.flatten) (h' : GoodGrid dx g threads'.flatten)
  (hη : Displaced η threads.flatten threads'.flatten)
  (ha : P2G (mkTransferParams deg dx fr mibf m vol) g threads = some arr)
  (ha' : P2G (mkTransferParams deg dx fr mibf m vol) g threads' = some arr')
include h h' hη ha ha'

/-- **C120** When the particles move, the mass of a node changes in proportion to the distance, wherever the particles are
within their cells and whether or not they enter other cells. `1e-25` is the weight below which the code leaves particles
out. -/
theorem C120_mass (hm : 0 ≤ m) {i : Fin d → ℕ} (hi : IsNode g i) :
    |(arr (flatIndex g.size i)).mass - (arr' (flatIndex g.size i)).mass| ≤
      m * (threads.flatten.length * (η / dx + 1 / 10 ^ 25)) := by
  have hdx := h.dx_pos
  obtain ⟨a, e, hn⟩ := C54_p2g_nodes (deg := deg) (fr := fr) (m := m) (vol := vol) (mibf := mibf) h
  obtain ⟨a', e', hn'⟩ := C54_p2g_nodes (deg := deg) (fr := fr) (m := m) (vol := vol) (mibf := mibf) h'
  obtain rfl : a = arr := Option.some.inj (e.symm.trans ha)
  obtain rfl : a' = arr' := Option.some.inj (e'.symm.trans ha')
  rw [(hn i hi).1, (hn' i hi).1, ← mul_sub, abs_mul, abs_of_nonneg hm]
  refine mul_le_mul_of_nonneg_left ?_ hm
  have key : ∀ p p' : Particle d ℝ, (p' = { p with x := p'.x } ∧ dist1 p.x p'.x ≤ η) →
      |shape deg dx (nodeAt g i) p.x - shape deg dx (nodeAt g i) p'.x| ≤ η / dx := fun p p' hp =>
    (shape_lip hdx _ _ _).trans (div_le_div_of_nonneg_right hp.2 hdx.le)
  refine (sum_near_lip (deg := deg) (dx := dx) hη.dist (nodeAt g i) (fun p => shape deg dx (nodeAt g i) p.x)
    (fun _ => η / dx + 1 / 10 ^ 25) (fun p p' hp => (key p p' hp).trans (by norm_num)) ?_ ?_ ?_).trans ?_
  · intro p p' hp hs
    have := key p p' hp
    rw [abs_le] at this
    rw [abs_of_nonneg (shape_nonneg' _ _)]; linarith
  · intro p p' hp hs
    have := key p p' hp
    rw [abs_le] at this
    rw [abs_of_nonneg (shape_nonneg' _ _)]; linarith
  · intro p p' hp
    have := (abs_nonneg _).trans (key p p' hp)
    positivity
  · rw [List.map_const', List.sum_replicate, nsmul_eq_mul]

/-- **C120** The same for the stress force on a node, with quadratic and cubic splines: it is continuous because the
gradients of the weights are. -/
theorem C120_force (hd : deg ≠ .one) {i : Fin d → ℕ} (hi : IsNode g i) (b : Fin d) :
    |(arr (flatIndex g.size i)).force b - (arr' (flatIndex g.size i)).force b| ≤
      (threads.flatten.map fun p => ∑ k, |p.tau b k|).sum * (2 * η / dx ^ 2 + 1 / 10 ^ 12 / dx) := by
  have hdx := h.dx_pos
  obtain ⟨a, e, hn⟩ := C54_p2g_nodes (deg := deg) (fr := fr) (m := m) (vol := vol) (mibf := mibf) h
  obtain ⟨a', e', hn'⟩ := C54_p2g_nodes (deg := deg) (fr := fr) (m := m) (vol := vol) (mibf := mibf) h'
  obtain rfl : a = arr := Option.some.inj (e.symm.trans ha)
  obtain rfl : a' = arr' := Option.some.inj (e'.symm.trans ha')
  rw [(hn i hi).2.1, (hn' i hi).2.1]
  set X := nodeAt g i
  have hcomp : ∀ L : List (Particle d ℝ), (L.map fun p => p.tau *ᵥ shapeGrad deg dx X p.x).sum b =
      (L.map fun p => ∑ k, p.tau b k * shapeGrad deg dx X p.x k).sum := by
    intro L
    induction L with
    | nil => rfl
    | cons p L ih => rw [List.map_cons, List.sum_cons, Pi.add_apply, ih, List.map_cons, List.sum_cons]; rfl
  rw [hcomp, hcomp]
  have small : ∀ x : Fin d → ℝ, shape deg dx X x ≤ 1 / 10 ^ 25 → ∀ k, |shapeGrad deg dx X x k| ≤ 1 / 10 ^ 12 / dx := by
    intro x hx k
    refine abs_le_of_sq_le_sq ?_ (by positivity)
    refine (shapeGrad_sq_le hd hdx X x k).trans ?_
    rw [div_pow]
    exact div_le_div_of_nonneg_right (by linarith) (by positivity)
  have key : ∀ p p' : Particle d ℝ, (p' = { p with x := p'.x } ∧ dist1 p.x p'.x ≤ η) → ∀ k,
      |shapeGrad deg dx X p.x k - shapeGrad deg dx X p'.x k| ≤ 2 * η / dx ^ 2 := fun p p' hp k =>
    (shapeGrad_lip hd hdx _ _ _ k).trans (div_le_div_of_nonneg_right (by linarith [hp.2]) (by positivity))
  have hη0 : ∀ p p' : Particle d ℝ, (p' = { p with x := p'.x } ∧ dist1 p.x p'.x ≤ η) → 0 ≤ η := fun p p' hp =>
    (dist1_nonneg _ _).trans hp.2
  have bnd : ∀ (p : Particle d ℝ) (v : Fin d → ℝ) (c : ℝ), (∀ k, |v k| ≤ c) →
      |∑ k, p.tau b k * v k| ≤ (∑ k, |p.tau b k|) * c := by
    intro p v c hv
    refine (Finset.abs_sum_le_sum_abs _ _).trans ?_
    rw [Finset.sum_mul]
    refine Finset.sum_le_sum fun k _ => ?_
    rw [abs_mul]; exact mul_le_mul_of_nonneg_left (hv k) (abs_nonneg _)
  have htau : ∀ p p' : Particle d ℝ, (p' = { p with x := p'.x } ∧ dist1 p.x p'.x ≤ η) → p'.tau = p.tau := by
    intro p p' hp; rw [hp.1]
  refine (sum_near_lip (deg := deg) (dx := dx) hη.dist X (fun p => ∑ k, p.tau b k * shapeGrad deg dx X p.x k)
    (fun p => (∑ k, |p.tau b k|) * (2 * η / dx ^ 2 + 1 / 10 ^ 12 / dx)) ?_ ?_ ?_ ?_).trans (le_of_eq ?_)
  · intro p p' hp
    have : ∑ k, p.tau b k * shapeGrad deg dx X p.x k - ∑ k, p'.tau b k * shapeGrad deg dx X p'.x k =
        ∑ k, p.tau b k * (shapeGrad deg dx X p.x k - shapeGrad deg dx X p'.x k) := by
      rw [htau p p' hp, ← Finset.sum_sub_distrib]
      exact Finset.sum_congr rfl fun k _ => by ring
    beta_reduce
    rw [this]
    refine bnd p _ _ fun k => (key p p' hp k).trans ?_
    have : 0 ≤ 1 / 10 ^ 12 / dx := by positivity
    linarith
  · intro p p' hp hs
    refine bnd p _ _ fun k => ?_
    have h1 := small _ hs k
    have h2 := key p p' hp k
    have h3 := abs_sub_abs_le_abs_sub (shapeGrad deg dx X p.x k) (shapeGrad deg dx X p'.x k)
    linarith
  · intro p p' hp hs
    beta_reduce
    rw [htau p p' hp]
    refine bnd p _ _ fun k => ?_
    have h1 := small _ hs k
    have h2 := key p p' hp k
    have h3 := abs_sub_abs_le_abs_sub (shapeGrad deg dx X p'.x k) (shapeGrad deg dx X p.x k)
    rw [abs_sub_comm] at h3
    linarith
  · intro p p' hp
    have := hη0 p p' hp
    exact mul_nonneg (Finset.sum_nonneg fun _ _ => abs_nonneg _) (by positivity)
  · rw [List.sum_map_mul_right]

/-- **C120** The same for the momentum of a node, for every transfer scheme. `D` is the inverse inertia factor of APIC. -/
theorem C120_momentum (hm : 0 ≤ m) {i : Fin d → ℕ} (hi : IsNode g i) (b : Fin d) {D : ℝ}
    (hD : D = if fr < 0 then (if deg = .three then 3 / dx ^ 2 else if deg = .two then 4 / dx ^ 2 else 0) else 0) :
    |(arr (flatIndex g.size i)).mass * (arr (flatIndex g.size i)).v b -
        (arr' (flatIndex g.size i)).mass * (arr' (flatIndex g.size i)).v b| ≤
      m * (threads.flatten.map fun p => |p.v b| * (η / dx + 1 / 10 ^ 25) +
        D * (∑ k, |p.Bmat b k|) * (3 * η + 2 * dx * (1 / 10 ^ 25))).sum := by
  have hdx := h.dx_pos
  obtain ⟨a, e, hn⟩ := C54_p2g_nodes (deg := deg) (fr := fr) (m := m) (vol := vol) (mibf := mibf) h
  obtain ⟨a', e', hn'⟩ := C54_p2g_nodes (deg := deg) (fr := fr) (m := m) (vol := vol) (mibf := mibf) h'
  obtain rfl : a = arr := Option.some.inj (e.symm.trans ha)
  obtain rfl : a' = arr' := Option.some.inj (e'.symm.trans ha')
  have hD0 : 0 ≤ D := by rw [hD]; split_ifs <;> positivity
  set X := nodeAt g i with hX
  set mom : Particle d ℝ → ℝ := fun p =>
    p.v b * shape deg dx X p.x + D * ∑ k, p.Bmat b k * (shape deg dx X p.x * (X k - p.x k)) with hmom
  have hval : ∀ (T : List (List (Particle d ℝ))) (c : Cell d ℝ), GoodGrid dx g T.flatten →
      c.mass = m * ((T.flatten.filter fun p => 1 / 10 ^ 25 < shape deg dx X p.x).map fun p => shape deg dx X p.x).sum →
      ((T.flatten.filter fun p => 1 / 10 ^ 25 < shape deg dx X p.x).map fun p => shape deg dx X p.x).sum • c.v =
          ((T.flatten.filter fun p => 1 / 10 ^ 25 < shape deg dx X p.x).map fun p => shape deg dx X p.x • (p.v +
            if fr < 0 then (mkTransferParams deg dx fr mibf m vol).apicDinverse •
              (p.Bmat *ᵥ (X - p.x)) else 0)).sum →
      c.mass * c.v b = m * ((T.flatten.filter fun p => 1 / 10 ^ 25 < shape deg dx X p.x).map mom).sum := by
    intro T c _ h1 h2
    have h3 := congrFun h2 b
    rw [Pi.smul_apply, smul_eq_mul] at h3
    rw [h1, mul_assoc, h3]
    congr 1
    generalize (T.flatten.filter fun p => 1 / 10 ^ 25 < shape deg dx X p.x) = L
    induction L with
    | nil => rfl
    | cons p L ih =>
      rw [List.map_cons, List.sum_cons, Pi.add_apply, ih, List.map_cons, List.sum_cons]
      congr 1
      have hA : (mkTransferParams deg dx fr mibf m vol).apicDinverse = if deg = .three then 3 / dx ^ 2 else if deg = .two then 4 / dx ^ 2 else 0 := by
        cases deg <;> simp [mkTransferParams, pow_two]
      rw [hmom, hD, hA]
      split_ifs <;>
        simp only [Pi.smul_apply, Pi.add_apply, smul_eq_mul, mulVec, dotProduct, Pi.sub_apply, Pi.zero_apply,
          Finset.mul_sum, mul_add, zero_mul, Finset.sum_const_zero, add_zero, mul_zero] <;>
        first
          | (congr 1
             · ring
             · exact Finset.sum_congr rfl fun k _ => by ring)
          | ring
  rw [hval _ _ h (hn i hi).1 (hn i hi).2.2.1, hval _ _ h' (hn' i hi).1 (hn' i hi).2.2.1, ← mul_sub, abs_mul,
    abs_of_nonneg hm]
  refine mul_le_mul_of_nonneg_left ?_ hm
  have key1 : ∀ p p' : Particle d ℝ, (p' = { p with x := p'.x } ∧ dist1 p.x p'.x ≤ η) →
      |shape deg dx X p.x - shape deg dx X p'.x| ≤ η / dx := fun p p' hp =>
    (shape_lip hdx _ _ _).trans (div_le_div_of_nonneg_right hp.2 hdx.le)
  have key2 : ∀ p p' : Particle d ℝ, (p' = { p with x := p'.x } ∧ dist1 p.x p'.x ≤ η) → ∀ k,
      |shape deg dx X p.x * (X k - p.x k) - shape deg dx X p'.x * (X k - p'.x k)| ≤ 3 * η := fun p p' hp k =>
    (shape_arm_lip hdx _ _ _ k).trans (by linarith [hp.2])
  have small : ∀ x : Fin d → ℝ, shape deg dx X x ≤ 1 / 10 ^ 25 → ∀ k,
      |shape deg dx X x * (X k - x k)| ≤ 2 * dx * (1 / 10 ^ 25) := by
    intro x hx k
    rcases eq_or_ne (shape deg dx X x) 0 with h0 | h0
    · rw [h0, zero_mul, abs_zero]; positivity
    · rw [abs_mul, abs_of_nonneg (shape_nonneg' _ _), mul_comm]
      exact mul_le_mul (shape_within hdx h0 k) hx (shape_nonneg' _ _) (by positivity)
  have hη0 : ∀ p p' : Particle d ℝ, (p' = { p with x := p'.x } ∧ dist1 p.x p'.x ≤ η) → 0 ≤ η := fun p p' hp =>
    (dist1_nonneg _ _).trans hp.2
  have bnd : ∀ (p : Particle d ℝ) (s c0 : ℝ) (v : Fin d → ℝ) (c : ℝ), |s| ≤ c0 → (∀ k, |v k| ≤ c) →
      |p.v b * s + D * ∑ k, p.Bmat b k * v k| ≤ |p.v b| * c0 + D * (∑ k, |p.Bmat b k|) * c := by
    intro p s c0 v c hs hv
    refine (abs_add_le _ _).trans (add_le_add ?_ ?_)
    · rw [abs_mul]; exact mul_le_mul_of_nonneg_left hs (abs_nonneg _)
    · rw [abs_mul, abs_of_nonneg hD0, mul_assoc]
      refine mul_le_mul_of_nonneg_left ?_ hD0
      refine (Finset.abs_sum_le_sum_abs _ _).trans ?_
      rw [Finset.sum_mul]
      refine Finset.sum_le_sum fun k _ => ?_
      rw [abs_mul]; exact mul_le_mul_of_nonneg_left (hv k) (abs_nonneg _)
  have hv : ∀ p p' : Particle d ℝ, (p' = { p with x := p'.x } ∧ dist1 p.x p'.x ≤ η) →
      p'.v = p.v ∧ p'.Bmat = p.Bmat := by
    intro p p' hp; rw [hp.1]; exact ⟨rfl, rfl⟩
  have t1 : (0 : ℝ) ≤ 1 / 10 ^ 25 := by positivity
  have t2 : 0 ≤ 2 * dx * (1 / 10 ^ 25) := by positivity
  refine sum_near_lip (deg := deg) (dx := dx) hη.dist X mom
    (fun p => |p.v b| * (η / dx + 1 / 10 ^ 25) + D * (∑ k, |p.Bmat b k|) * (3 * η + 2 * dx * (1 / 10 ^ 25))) ?_ ?_ ?_ ?_
  · intro p p' hp
    have : mom p - mom p' = p.v b * (shape deg dx X p.x - shape deg dx X p'.x) + D * ∑ k, p.Bmat b k *
        (shape deg dx X p.x * (X k - p.x k) - shape deg dx X p'.x * (X k - p'.x k)) := by
      rw [hmom]
      simp only [(hv p p' hp).1, (hv p p' hp).2, mul_sub, Finset.sum_sub_distrib]
      ring
    rw [this]
    refine bnd p _ _ _ _ ((key1 p p' hp).trans (by linarith)) fun k => (key2 p p' hp k).trans (by linarith)
  · intro p p' hp hs
    refine bnd p _ _ _ _ ?_ fun k => ?_
    · have := key1 p p' hp
      rw [abs_le] at this
      rw [abs_of_nonneg (shape_nonneg' _ _)]; linarith
    · have h1 := small _ hs k
      have h2 := key2 p p' hp k
      have h3 := abs_sub_abs_le_abs_sub (shape deg dx X p.x * (X k - p.x k)) (shape deg dx X p'.x * (X k - p'.x k))
      linarith
  · intro p p' hp hs
    rw [hmom]
    simp only [(hv p p' hp).1, (hv p p' hp).2]
    refine bnd p _ _ _ _ ?_ fun k => ?_
    · have := key1 p p' hp
      rw [abs_le] at this
      rw [abs_of_nonneg (shape_nonneg' _ _)]; linarith
    · have h1 := small _ hs k
      have h2 := key2 p p' hp k
      have h3 := abs_sub_abs_le_abs_sub (shape deg dx X p'.x * (X k - p'.x k)) (shape deg dx X p.x * (X k - p.x k))
      rw [abs_sub_comm] at h3
      linarith
  · intro p p' hp
    have := hη0 p p' hp
    have : 0 ≤ ∑ k, |p.Bmat b k| := Finset.sum_nonneg fun _ _ => abs_nonneg _
    positivity

end lip

namespace CrossEx
open Verif.Props.Ex

/-- A particle at rest under uniaxial stress, next to the node `(2, 2)`. -/
def lone (x : ℚ) : Particle 2 ℚ := { Particle.init with x := ![x, 2], tau := !![1, 0; 0, 0] }

lemma lone_good {x : ℚ} (h1 : 1 ≤ x) (h2 : x < 4) : GoodGrid 1 grid [[lone x]].flatten := ⟨one_pos, uniform, fun p hp => by
  simp only [List.flatten_cons, List.flatten_nil, List.append_nil, List.mem_cons, List.not_mem_nil, or_false] at hp
  subst hp
  exact inside ⟨h1, h2⟩ (by norm_num)⟩

/-- **C120** fails for linear splines: while a particle passes a node, however slowly, the force on that node changes sign. -/
theorem C120_linear_false {ε : ℚ} (h0 : 0 < ε) (h1 : ε ≤ 1 / 2) : ∃ arr arr',
    P2G (mkTransferParams .one (1 : ℚ) 0 false 1 1) grid [[lone 2]] = some arr ∧
    P2G (mkTransferParams .one (1 : ℚ) 0 false 1 1) grid [[lone (2 + ε)]] = some arr' ∧
    (arr (flatIndex grid.size ![2, 2])).force 0 = 1 ∧ (arr' (flatIndex grid.size ![2, 2])).force 0 = -1 := by
  obtain ⟨a, e, hn⟩ := C54_p2g_nodes (deg := .one) (fr := 0) (m := 1) (vol := 1) (mibf := false)
    (lone_good (x := 2) (by norm_num) (by norm_num))
  obtain ⟨a', e', hn'⟩ := C54_p2g_nodes (deg := .one) (fr := 0) (m := 1) (vol := 1) (mibf := false)
    (lone_good (x := 2 + ε) (by linarith) (by linarith))
  have hi : IsNode grid ![2, 2] := by intro a; fin_cases a <;> decide
  have hX : nodeAt grid ![2, 2] = ![2, 2] := by funext a; fin_cases a <;> rfl
  refine ⟨a, a', e, e', ?_, ?_⟩
  · rw [(hn _ hi).2.1, hX]
    have hs : (1 : ℚ) / 10 ^ 25 < shape .one 1 ![2, 2] (lone 2).x := by
      norm_num [shape, lone, Fin.prod_univ_two, N, N1]
    simp only [List.flatten_cons, List.flatten_nil, List.append_nil, List.filter_cons, List.filter_nil]
    rw [if_pos (by simpa using hs)]
    simp [lone, mulVec, dotProduct, Fin.sum_univ_two, shapeGrad, Fin.prod_univ_two, N, N1, dNdu, dN1]
  · rw [(hn' _ hi).2.1, hX]
    have hs : (1 : ℚ) / 10 ^ 25 < shape .one 1 ![2, 2] (lone (2 + ε)).x := by
      simp only [shape, lone, Fin.prod_univ_two, N, N1]
      simp only [cons_val_zero, cons_val_one, sub_self, zero_div, abs_zero, sub_zero, div_one, add_sub_cancel_left,
        abs_of_pos h0]
      rw [max_eq_right (by linarith), max_eq_right (by norm_num)]
      norm_num; linarith
    simp only [List.flatten_cons, List.flatten_nil, List.append_nil, List.filter_cons, List.filter_nil]
    rw [if_pos (by simpa using hs)]
    have h2 : |ε| < 1 := by rw [abs_of_pos h0]; linarith
    simp [lone, mulVec, dotProduct, Fin.sum_univ_two, shapeGrad, Fin.prod_univ_two, N, N1, dNdu, dN1, h0, h2]

/-- The stretch of the lone particle after a step of length 1 (unit mass, volume and cell size, no gravity). -/
def stretch (deg : Deg) (x : ℚ) : Option ℚ := do
  let P := mkTransferParams deg (1 : ℚ) 0 false 1 1
  let arr ← P2G P grid [[lone x]]
  let qs ← G2P P false 1 id grid (eulerUpdate P 1 0 (fun _ _ v => v) grid arr) [lone x]
  qs.head?.map fun q => q.F 0 0

/-- **C120** does not extend to the strains with quadratic splines: where the support of a particle at the edge of a body
reaches a new node, the force on that node is small, but so is its mass. In units of `dt² V τ / (m dx²)`, the strain
increment jumps from -4 to -6 (here: between two points a hundred-billionth of a cell apart). -/
theorem C120_strain_false : stretch .two (5 / 2) = some (1 - 4) ∧
    ∃ s, stretch .two (5 / 2 + 1 / 10 ^ 11) = some (1 - s) ∧ |s - 6| < 1 / 10 ^ 9 := by
  refine ⟨by decide +kernel, 24999999999900000000001 / 5000000000099999999999 + 1, by decide +kernel, ?_⟩
  rw [abs_lt]; constructor <;> norm_num

/-- With cubic splines it does not jump at the corresponding place. -/
example : ∃ s, stretch .three 2 = some (1 - 3) ∧ stretch .three (2 + 1 / 10 ^ 5) = some (1 - s) ∧
    |s - 3| < 1 / 10 ^ 4 :=
  ⟨8000300000599919000629997300009 / 4000120000599972999910002699991 + 1, by decide +kernel, by decide +kernel, by
    rw [abs_lt]; constructor <;> norm_num⟩

/-- 6 x 6 nodes. -/
def realGrid : Axes 2 ℝ := fun _ => [0, 1, 2, 3, 4, 5]

/-- A moving particle just left (`s = -1`) or right (`s = 1`) of the middle between two nodes, where the stencil changes. -/
noncomputable def mover (s : ℝ) : Particle 2 ℝ :=
  { Particle.init with x := ![5 / 2 + s / 100, 26 / 10], v := ![1, 2], Bmat := !![1, 2; 3, 4], tau := !![5, 1; 1, -2] }

lemma mover_good {s : ℝ} (h : |s| ≤ 1) : GoodGrid 1 realGrid [[mover s]].flatten := ⟨one_pos, fun a => ⟨0, by
  simp only [realGrid, List.length_cons, List.length_nil, List.range_succ, List.range_zero]; norm_num⟩, fun p hp a => by
  simp only [List.flatten_cons, List.flatten_nil, List.append_nil, List.mem_cons, List.not_mem_nil, or_false] at hp
  subst hp
  have := abs_le.mp h
  refine ⟨0, 5, rfl, rfl, ?_⟩
  fin_cases a
  · show (0 : ℝ) + 1 ≤ 5 / 2 + s / 100 ∧ 5 / 2 + s / 100 < 5 - 1
    constructor <;> linarith
  · show (0 : ℝ) + 1 ≤ 26 / 10 ∧ (26 / 10 : ℝ) < 5 - 1
    norm_num⟩

lemma mover_displaced : Displaced (1 / 50) [[mover (-1)]].flatten [[mover 1]].flatten := by
  refine .cons ⟨rfl, ?_⟩ .nil
  simp only [mover, Fin.sum_univ_two, cons_val_zero, cons_val_one]
  norm_num [abs_of_neg]

/-- The particle crosses the boundary; with APIC and quadratic splines, at every node. -/
example : ∃ arr arr', P2G (mkTransferParams .two (1 : ℝ) (-2) false 3 1) realGrid [[mover (-1)]] = some arr ∧
    P2G (mkTransferParams .two (1 : ℝ) (-2) false 3 1) realGrid [[mover 1]] = some arr' ∧
    ∀ i, IsNode realGrid i →
      |(arr (flatIndex realGrid.size i)).mass - (arr' (flatIndex realGrid.size i)).mass| ≤ 1 / 10 ∧
      |(arr (flatIndex realGrid.size i)).force 0 - (arr' (flatIndex realGrid.size i)).force 0| ≤ 1 / 4 ∧
      |(arr (flatIndex realGrid.size i)).mass * (arr (flatIndex realGrid.size i)).v 0 -
        (arr' (flatIndex realGrid.size i)).mass * (arr' (flatIndex realGrid.size i)).v 0| ≤ 3 := by
  have g1 := mover_good (s := -1) (by norm_num)
  have g2 := mover_good (s := 1) (by norm_num)
  obtain ⟨a, e, -⟩ := C54_p2g_nodes (deg := .two) (fr := -2) (m := 3) (vol := 1) (mibf := false) g1
  obtain ⟨a', e', -⟩ := C54_p2g_nodes (deg := .two) (fr := -2) (m := 3) (vol := 1) (mibf := false) g2
  refine ⟨a, a', e, e', fun i hi => ⟨?_, ?_, ?_⟩⟩
  · refine (C120_mass g1 g2 mover_displaced e e' (by norm_num) hi).trans ?_
    simp only [List.flatten_cons, List.flatten_nil, List.append_nil, List.length_cons, List.length_nil]
    norm_num
  · refine (C120_force g1 g2 mover_displaced e e' (by decide) hi 0).trans ?_
    simp only [List.flatten_cons, List.flatten_nil, List.append_nil, List.map_cons, List.map_nil, List.sum_cons,
      List.sum_nil, Fin.sum_univ_two, mover, of_apply, cons_val_zero, cons_val_one]
    norm_num
  · refine (C120_momentum g1 g2 mover_displaced e e' (by norm_num) hi 0 rfl).trans ?_
    simp only [List.flatten_cons, List.flatten_nil, List.append_nil, List.map_cons, List.map_nil, List.sum_cons,
      List.sum_nil, Fin.sum_univ_two, mover, of_apply, cons_val_zero, cons_val_one]
    rw [if_pos (by norm_num), if_neg (by decide), if_pos trivial]
    norm_num

end CrossEx

end Verif.Props
