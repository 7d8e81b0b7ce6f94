import Verif.Model.Boundary
import Mathlib.Tactic.FieldSimp
import Mathlib.Tactic.Positivity
import Mathlib.Tactic.Linarith
import Mathlib.Tactic.FinCases

set_option linter.unusedSectionVars false
set_option linter.unusedSimpArgs false

/-!
# C27–C31: velocities at walls

Specification: each plate has a normal pointing from the plate into the material, and a Coulomb law
for the velocity relative to the plate.
-/

namespace Verif.Props
open Verif Matrix

/-! ### specification -/

/-- Direction from the plate into the material, 2D. -/
def normal2 : PlateType → Fin 2 → ℝ
  | .left => ![1, 0]
  | .right => ![-1, 0]
  | .bottom => ![0, 1]
  | .top => ![0, -1]
  | _ => ![0, 0]

/-- Direction from the plate into the material, 3D. -/
def normal3 : PlateType → Fin 3 → ℝ
  | .left => ![1, 0, 0]
  | .right => ![-1, 0, 0]
  | .bottom => ![0, 1, 0]
  | .top => ![0, -1, 0]
  | .back => ![0, 0, 1]
  | .front => ![0, 0, -1]

/-- The friction coefficient of a wall with the coefficient `own` at node `index`: its own one, or, if the friction
coefficient is taken from the material, that of the node. -/
def frictionAt (useMibf : Bool) (gf : ℕ → ℝ) (index : ℕ) (own : ℝ) : ℝ :=
  if useMibf then gf index else own

/-- `X` is on or behind the plate, between its two ends. -/
def Behind2 (p : Plate 2) (X : Fin 2 → ℝ) : Prop :=
  (p.type ≠ .front ∧ p.type ≠ .back) ∧
  normal2 p.type ⬝ᵥ X ≤ normal2 p.type ⬝ᵥ (fun _ => p.pos) ∧
  ∀ a, normal2 p.type a = 0 → p.lower < X a ∧ X a < p.upper

/-- Same in 3D; plates are unbounded in `z`, front and back plates in all directions. -/
def Behind3 (p : Plate 3) (X : Fin 3 → ℝ) : Prop :=
  normal3 p.type ⬝ᵥ X ≤ normal3 p.type ⬝ᵥ (fun _ => p.pos) ∧
  (p.type ≠ .front ∧ p.type ≠ .back →
    ∀ a, a ≠ 2 → normal3 p.type a = 0 → p.lower < X a ∧ X a < p.upper)

/-- Coulomb friction: the tangential velocity `t` loses `μ |vn|` of its length, keeping its
direction, or vanishes. -/
noncomputable def coulomb {d : ℕ} (μ vn : ℝ) (t : Fin d → ℝ) : Fin d → ℝ :=
  if vnorm t ≤ μ * |vn| then 0 else (1 - μ * |vn| / vnorm t) • t

/-- The law for the velocity `r` relative to a wall with unit normal `n`. -/
noncomputable def wallLaw {d : ℕ} (bc : BC) (μ : ℝ) (n r : Fin d → ℝ) : Fin d → ℝ :=
  match bc with
  | .noSlip => 0
  | .slipStick => coulomb μ (r ⬝ᵥ n) (r - (r ⬝ᵥ n) • n)
  | .slipFree => if r ⬝ᵥ n < 0 then coulomb μ (r ⬝ᵥ n) (r - (r ⬝ᵥ n) • n) else r

lemma inside2_iff (p : Plate 2) (X : Fin 2 → ℝ) : p.inside2 X ↔ Behind2 p X := by
  unfold Plate.inside2 Behind2
  cases p.type <;> simp [normal2, Fin.forall_fin_two, vecHead, vecTail, dotProduct] <;>
    constructor <;> intro h <;> (try obtain ⟨h1, h2, h3⟩ := h) <;> (try obtain ⟨h1, h2⟩ := h) <;>
    grind

lemma inside3_iff (p : Plate 3) (X : Fin 3 → ℝ) : p.inside3 X ↔ Behind3 p X := by
  unfold Plate.inside3 Behind3
  cases p.type <;> simp [normal3, Fin.forall_fin_succ, vecHead, vecTail, dotProduct, Fin.sum_univ_three] <;>
    grind

lemma wallFriction_eq (useMibf : Bool) (gf : ℕ → ℝ) (index : ℕ) :
    wallFriction useMibf gf index = frictionAt useMibf gf index := rfl

/-! ### vectors -/

lemma dot_self_nonneg {d : ℕ} (v : Fin d → ℝ) : 0 ≤ v ⬝ᵥ v :=
  Finset.sum_nonneg fun _ _ => mul_self_nonneg _

lemma vnorm_nonneg {d : ℕ} (v : Fin d → ℝ) : 0 ≤ vnorm v := Real.sqrt_nonneg _

lemma vnorm_sq {d : ℕ} (v : Fin d → ℝ) : vnorm v * vnorm v = v ⬝ᵥ v :=
  Real.mul_self_sqrt (dot_self_nonneg v)

lemma vnorm_eq_zero {d : ℕ} {v : Fin d → ℝ} (h : vnorm v = 0) : v = 0 := by
  have : v ⬝ᵥ v = 0 := by rw [← vnorm_sq, h, mul_zero]
  have h0 : ∀ a ∈ Finset.univ, v a * v a = 0 :=
    (Finset.sum_eq_zero_iff_of_nonneg fun a _ => mul_self_nonneg (v a)).mp this
  funext a
  exact mul_self_eq_zero.mp (h0 a (Finset.mem_univ _))

lemma vnorm_single2 (a : ℝ) : vnorm ![a, 0] = |a| ∧ vnorm ![0, a] = |a| := by
  constructor <;> simp [vnorm, dotProduct, Real.sqrt_mul_self_eq_abs]

/-! ### the code follows the law -/

lemma slide2_eq {μ t n : ℝ} (hμ : 0 ≤ μ) :
    slide2 μ t n = if |t| ≤ μ * |n| then 0 else (1 - μ * |n| / |t|) * t := by
  have hn := abs_nonneg n
  unfold slide2
  by_cases h0 : μ = 0
  · subst h0
    simp only [if_true, zero_mul, zero_div, sub_zero, one_mul]
    split_ifs with h
    · exact abs_eq_zero.mp (le_antisymm h (abs_nonneg _))
    · rfl
  · rw [if_neg h0]
    rcases lt_trichotomy t 0 with ht | ht | ht
    · rw [abs_of_neg ht, if_neg (not_lt.mpr ht.le)]
      split_ifs with h1 h2 h2
      · rfl
      · exact absurd h1.le h2
      · have : -t = μ * |n| := le_antisymm h2 (not_lt.mp h1)
        linarith
      · have := ht.ne
        field_simp; ring
    · subst ht
      have : 0 ≤ μ * |n| := mul_nonneg hμ hn
      simp only [abs_zero, if_pos this, lt_irrefl, if_false, zero_add, gt_iff_lt]
      split_ifs with h1
      · rfl
      · exact le_antisymm (not_lt.mp h1) this
    · rw [abs_of_pos ht, if_pos (show t > 0 from ht)]
      split_ifs with h1 h2 h2
      · rfl
      · exact absurd h1.le h2
      · have : t = μ * |n| := le_antisymm h2 (not_lt.mp h1)
        linarith
      · field_simp

lemma coulomb_first {μ t n : ℝ} : coulomb μ n ![t, 0] =
    ![if |t| ≤ μ * |n| then 0 else (1 - μ * |n| / |t|) * t, 0] := by
  unfold coulomb
  rw [(vnorm_single2 t).1]
  split_ifs <;> (funext a; fin_cases a <;> simp)

lemma coulomb_second {μ t n : ℝ} : coulomb μ n ![0, t] =
    ![0, if |t| ≤ μ * |n| then 0 else (1 - μ * |n| / |t|) * t] := by
  unfold coulomb
  rw [(vnorm_single2 t).2]
  split_ifs <;> (funext a; fin_cases a <;> simp)

lemma coulomb_neg {d : ℕ} (μ vn : ℝ) (t : Fin d → ℝ) : coulomb μ (-vn) t = coulomb μ vn t := by
  unfold coulomb; rw [abs_neg]

lemma plateRel2_eq {type : PlateType} {bc : BC} {μ : ℝ} (hμ : 0 ≤ μ)
    (ht : type ≠ .front ∧ type ≠ .back) (r : Fin 2 → ℝ) :
    plateRel2 type bc μ r = wallLaw bc μ (normal2 type) r := by
  have hx : r - (r 0) • (![1, 0] : Fin 2 → ℝ) = ![0, r 1] := by
    funext a; fin_cases a <;> simp
  have hx' : r - (-r 0) • (![-1, 0] : Fin 2 → ℝ) = ![0, r 1] := by
    funext a; fin_cases a <;> simp
  have hy : r - (r 1) • (![0, 1] : Fin 2 → ℝ) = ![r 0, 0] := by
    funext a; fin_cases a <;> simp
  have hy' : r - (-r 1) • (![0, -1] : Fin 2 → ℝ) = ![r 0, 0] := by
    funext a; fin_cases a <;> simp
  have d1 : r ⬝ᵥ (![1, 0] : Fin 2 → ℝ) = r 0 := by simp [dotProduct]
  have d2 : r ⬝ᵥ (![-1, 0] : Fin 2 → ℝ) = -r 0 := by simp [dotProduct]
  have d3 : r ⬝ᵥ (![0, 1] : Fin 2 → ℝ) = r 1 := by simp [dotProduct]
  have d4 : r ⬝ᵥ (![0, -1] : Fin 2 → ℝ) = -r 1 := by simp [dotProduct]
  have z : (![0, 0] : Fin 2 → ℝ) = 0 := by funext a; fin_cases a <;> rfl
  cases bc
  · simp only [plateRel2, wallLaw, z]
  · cases type <;>
      simp_all [plateRel2, wallLaw, normal2, coulomb_neg, coulomb_first, coulomb_second, slide2_eq hμ]
  · cases type <;>
      simp_all [plateRel2, wallLaw, normal2, coulomb_neg, coulomb_first, coulomb_second, slide2_eq hμ]

lemma objectRel_eq {d : ℕ} {bc : BC} {μ : ℝ} (hμ : 0 ≤ μ) (n v : Fin d → ℝ) :
    objectRel bc μ n v = wallLaw bc (if v ⬝ᵥ n < 0 then μ else 0) n v := by
  set vt := v - (v ⬝ᵥ n) • n with hvt
  have key : ∀ dot : ℝ, dot < 0 →
      (if μ > 0 then (if -dot * μ < vnorm vt then vt + (dot * μ) • normalized vt else 0) else vt) =
        coulomb μ dot vt := by
    intro dot hd
    unfold coulomb
    rw [abs_of_neg hd]
    rcases hμ.lt_or_eq with h | h
    · rw [if_pos h]
      by_cases h1 : -dot * μ < vnorm vt
      · rw [if_pos h1, if_neg (by rw [mul_comm]; exact not_le.mpr h1)]
        have hpos : 0 < vnorm vt := lt_trans (mul_pos (neg_pos.mpr hd) h) h1
        have hsq : vt ⬝ᵥ vt > 0 := by rw [← vnorm_sq]; exact mul_pos hpos hpos
        unfold normalized
        rw [if_pos hsq, smul_smul, sub_smul, one_smul, ← vnorm]
        have : dot * μ * (1 / vnorm vt) = -(μ * -dot / vnorm vt) := by ring
        rw [this, neg_smul, sub_eq_add_neg]
      · rw [if_neg h1, if_pos (by rw [mul_comm]; exact not_lt.mp h1)]
    · subst h
      simp only [gt_iff_lt, lt_irrefl, if_false, zero_mul, zero_div, sub_zero, one_smul]
      split_ifs with h1
      · exact vnorm_eq_zero (le_antisymm h1 (vnorm_nonneg _))
      · rfl
  have key0 : coulomb 0 (v ⬝ᵥ n) vt = vt := by
    unfold coulomb
    simp only [zero_mul, zero_div, sub_zero, one_smul]
    split_ifs with h1
    · exact (vnorm_eq_zero (le_antisymm h1 (vnorm_nonneg _))).symm
    · rfl
  cases bc
  · rfl
  · simp only [objectRel, wallLaw, ← hvt]
    by_cases hd : v ⬝ᵥ n < 0
    · simp only [if_pos hd]; exact key _ hd
    · simp only [if_neg hd]; exact key0.symm
  · simp only [objectRel, wallLaw, ← hvt]
    by_cases hd : v ⬝ᵥ n < 0
    · simp only [if_pos hd]; exact key _ hd
    · simp only [if_neg hd]

/-! ### lists of walls -/

section lists
variable {d : ℕ} {inside : Plate d → (Fin d → ℝ) → Prop}
  {rel : PlateType → BC → ℝ → (Fin d → ℝ) → (Fin d → ℝ)} {fr : ℝ → ℝ} {X : Fin d → ℝ}

lemma collidePlates_none {L : List (Plate d)} (h : ∀ q ∈ L, ¬ inside q X) (v : Fin d → ℝ) :
    collidePlates inside rel fr X L v = v := by
  induction L generalizing v with
  | nil => rfl
  | cons q L ih =>
    rw [collidePlates, List.foldl_cons, if_neg (h q (by simp))]
    exact ih (fun p hp => h p (by simp [hp])) v

lemma collidePlates_append (L M : List (Plate d)) (v : Fin d → ℝ) :
    collidePlates inside rel fr X (L ++ M) v =
      collidePlates inside rel fr X M (collidePlates inside rel fr X L v) := List.foldl_append

lemma collidePlates_cons (p : Plate d) (L : List (Plate d)) (hp : inside p X) (v : Fin d → ℝ) :
    collidePlates inside rel fr X (p :: L) v =
      collidePlates inside rel fr X L (rel p.type p.bc (fr p.friction) (v - p.vel) + p.vel) := by
  rw [collidePlates, List.foldl_cons, if_pos hp]; rfl

lemma collideObjects_none {L : List (GenObject d)} (h : ∀ q ∈ L, ¬ q.inside X) (v : Fin d → ℝ) :
    collideObjects fr X L v = v := by
  induction L generalizing v with
  | nil => rfl
  | cons q L ih =>
    rw [collideObjects, List.foldl_cons, if_neg (h q (by simp))]
    exact ih (fun p hp => h p (by simp [hp])) v

lemma collideObjects_append (L M : List (GenObject d)) (v : Fin d → ℝ) :
    collideObjects fr X (L ++ M) v = collideObjects fr X M (collideObjects fr X L v) :=
  List.foldl_append

lemma collideObjects_cons (p : GenObject d) (L : List (GenObject d)) (hp : p.inside X)
    (v : Fin d → ℝ) :
    collideObjects fr X (p :: L) v =
      collideObjects fr X L (objectRel p.bc (fr p.friction) (p.normal X) v) := by
  rw [collideObjects, List.foldl_cons, if_pos hp]; rfl

end lists

variable {useMibf : Bool} {gf : ℕ → ℝ} {dt : ℝ} {index : ℕ}

/-! ### C27 -/

/-- **C27** (2D) A node whose displaced position is behind a no-slip plate, and behind no plate listed
later, gets exactly the velocity of the plate. -/
theorem C27_plate2 {objs : List (GenObject 2)} {pre post : List (Plate 2)} {p : Plate 2}
    {X v : Fin 2 → ℝ} (hbc : p.bc = .noSlip) (hp : Behind2 p (X + dt • v))
    (hpost : ∀ q ∈ post, ¬ Behind2 q (X + dt • v)) :
    boundaryCollision2 useMibf gf dt objs (pre ++ p :: post) index X v = p.vel := by
  simp only [boundaryCollision2, collidePlates_append]
  rw [collidePlates_cons _ _ ((inside2_iff _ _).mpr hp),
    collidePlates_none fun q hq h => hpost q hq ((inside2_iff _ _).mp h), hbc]
  funext a; fin_cases a <;> simp [plateRel2]

/-- **C27** (3D) -/
theorem C27_plate3 {objs : List (GenObject 3)} {pre post : List (Plate 3)} {p : Plate 3}
    {X v : Fin 3 → ℝ} (hbc : p.bc = .noSlip) (hp : Behind3 p (X + dt • v))
    (hpost : ∀ q ∈ post, ¬ Behind3 q (X + dt • v)) :
    boundaryCollision3 useMibf gf dt objs (pre ++ p :: post) index X v = p.vel := by
  simp only [boundaryCollision3, collidePlates_append]
  rw [collidePlates_cons _ _ ((inside3_iff _ _).mpr hp),
    collidePlates_none fun q hq h => hpost q hq ((inside3_iff _ _).mp h), hbc]
  funext a; fin_cases a <;> simp [plateRel3]

/-- **C27** A node inside a no-slip terrain object (and inside no object listed later, behind no
plate) stops; 2D. -/
theorem C27_object2 {pre post : List (GenObject 2)} {o : GenObject 2} {plates : List (Plate 2)}
    {X v : Fin 2 → ℝ} (hbc : o.bc = .noSlip) (ho : o.inside (X + dt • v))
    (hpost : ∀ q ∈ post, ¬ q.inside (X + dt • v)) (hpl : ∀ q ∈ plates, ¬ Behind2 q (X + dt • v)) :
    boundaryCollision2 useMibf gf dt (pre ++ o :: post) plates index X v = 0 := by
  simp only [boundaryCollision2, collideObjects_append]
  rw [collidePlates_none fun q hq h => hpl q hq ((inside2_iff _ _).mp h), collideObjects_cons _ _ ho,
    collideObjects_none hpost, hbc]
  rfl

/-- **C27** same in 3D. -/
theorem C27_object3 {pre post : List (GenObject 3)} {o : GenObject 3} {plates : List (Plate 3)}
    {X v : Fin 3 → ℝ} (hbc : o.bc = .noSlip) (ho : o.inside (X + dt • v))
    (hpost : ∀ q ∈ post, ¬ q.inside (X + dt • v)) (hpl : ∀ q ∈ plates, ¬ Behind3 q (X + dt • v)) :
    boundaryCollision3 useMibf gf dt (pre ++ o :: post) plates index X v = 0 := by
  simp only [boundaryCollision3, collideObjects_append]
  rw [collidePlates_none fun q hq h => hpl q hq ((inside3_iff _ _).mp h), collideObjects_cons _ _ ho,
    collideObjects_none hpost, hbc]
  rfl

/-! ### C29 -/

/-- **C29** (2D plates) If a plate is the only wall a node hits, the relative velocity follows the
Coulomb law: no-slip stops it; slip-stick removes the normal component and reduces the tangential
one; slip-free does so only for approaching nodes. -/
theorem C29_plate2 {objs : List (GenObject 2)} {pre post : List (Plate 2)} {p : Plate 2}
    {X v : Fin 2 → ℝ} (hμ : 0 ≤ frictionAt useMibf gf index p.friction)
    (hp : Behind2 p (X + dt • v)) (hothers : ∀ q ∈ pre ++ post, ¬ Behind2 q (X + dt • v))
    (hobj : ∀ o ∈ objs, ¬ o.inside (X + dt • v)) :
    boundaryCollision2 useMibf gf dt objs (pre ++ p :: post) index X v - p.vel =
      wallLaw p.bc (frictionAt useMibf gf index p.friction) (normal2 p.type) (v - p.vel) := by
  simp only [boundaryCollision2, wallFriction_eq, collidePlates_append]
  rw [collidePlates_cons _ _ ((inside2_iff _ _).mpr hp),
    collidePlates_none fun q hq h => hothers q (by simp [hq]) ((inside2_iff _ _).mp h),
    collidePlates_none fun q hq h => hothers q (by simp [hq]) ((inside2_iff _ _).mp h),
    collideObjects_none hobj, plateRel2_eq hμ hp.1, add_sub_cancel_right]

/-- **C29** (terrain objects, 2D; friction acts only on approaching nodes) -/
theorem C29_object2 {pre post : List (GenObject 2)} {o : GenObject 2} {plates : List (Plate 2)}
    {X v : Fin 2 → ℝ} (hμ : 0 ≤ frictionAt useMibf gf index o.friction)
    (ho : o.inside (X + dt • v)) (hothers : ∀ q ∈ pre ++ post, ¬ q.inside (X + dt • v))
    (hpl : ∀ q ∈ plates, ¬ Behind2 q (X + dt • v)) :
    boundaryCollision2 useMibf gf dt (pre ++ o :: post) plates index X v =
      wallLaw o.bc (if v ⬝ᵥ o.normal (X + dt • v) < 0 then
        frictionAt useMibf gf index o.friction else 0) (o.normal (X + dt • v)) v := by
  simp only [boundaryCollision2, wallFriction_eq, collideObjects_append]
  rw [collidePlates_none fun q hq h => hpl q hq ((inside2_iff _ _).mp h), collideObjects_cons _ _ ho,
    collideObjects_none (fun q hq => hothers q (by simp [hq])),
    collideObjects_none (fun q hq => hothers q (by simp [hq])), objectRel_eq hμ]

/-- **C29** (terrain objects, 3D) -/
theorem C29_object3 {pre post : List (GenObject 3)} {o : GenObject 3} {plates : List (Plate 3)}
    {X v : Fin 3 → ℝ} (hμ : 0 ≤ frictionAt useMibf gf index o.friction)
    (ho : o.inside (X + dt • v)) (hothers : ∀ q ∈ pre ++ post, ¬ q.inside (X + dt • v))
    (hpl : ∀ q ∈ plates, ¬ Behind3 q (X + dt • v)) :
    boundaryCollision3 useMibf gf dt (pre ++ o :: post) plates index X v =
      wallLaw o.bc (if v ⬝ᵥ o.normal (X + dt • v) < 0 then
        frictionAt useMibf gf index o.friction else 0) (o.normal (X + dt • v)) v := by
  simp only [boundaryCollision3, wallFriction_eq, collideObjects_append]
  rw [collidePlates_none fun q hq h => hpl q hq ((inside3_iff _ _).mp h), collideObjects_cons _ _ ho,
    collideObjects_none (fun q hq => hothers q (by simp [hq])),
    collideObjects_none (fun q hq => hothers q (by simp [hq])), objectRel_eq hμ]

/-! ### 3D plates: what remains of the Coulomb law -/

/-- The factor by which Coulomb friction multiplies the tangential velocity. -/
noncomputable def coulombFactor (μ vn len : ℝ) : ℝ := if len ≤ μ * |vn| then 0 else 1 - μ * |vn| / len

lemma sgn_mul_abs (t : ℝ) : sgn t * |t| = t := by
  unfold sgn
  rcases lt_trichotomy t 0 with h | h | h
  · rw [if_neg (not_lt.mpr h.le), if_pos h, abs_of_neg h]; ring
  · subst h; simp
  · rw [if_pos h, if_neg (not_lt.mpr h.le), abs_of_pos h]; ring

lemma sqrt_ratio {a b : ℝ} (ha : a ≠ 0) :
    Real.sqrt (1 + b * b / (a * a)) = Real.sqrt (a * a + b * b) / |a| := by
  have : 1 + b * b / (a * a) = (a * a + b * b) / (a * a) := by field_simp
  rw [this, Real.sqrt_div (add_nonneg (mul_self_nonneg _) (mul_self_nonneg _)), Real.sqrt_mul_self_eq_abs]

lemma slide3_spec {μ t₁ t₂ n : ℝ} (hμ : 0 ≤ μ) :
    let c := coulombFactor μ n (Real.sqrt (t₁ * t₁ + t₂ * t₂))
    0 ≤ c ∧ c ≤ 1 ∧ (slide3 μ t₁ t₂ n).1 = c * t₁ ∧
    ∃ c₂, c ≤ c₂ ∧ c₂ ≤ 1 ∧ (slide3 μ t₁ t₂ n).2 = c₂ * t₂ ∧ (t₁ = 0 → c₂ = c) ∧ (c = 0 → c₂ = 0) := by
  intro c
  set vt := Real.sqrt (t₁ * t₁ + t₂ * t₂) with hvt
  have hvt0 : 0 ≤ vt := Real.sqrt_nonneg _
  have hsq : vt * vt = t₁ * t₁ + t₂ * t₂ := Real.mul_self_sqrt
    (add_nonneg (mul_self_nonneg _) (mul_self_nonneg _))
  have hfn : 0 ≤ μ * |n| := mul_nonneg hμ (abs_nonneg _)
  have hc : c = if vt ≤ μ * |n| then 0 else 1 - μ * |n| / vt := rfl
  by_cases h0 : μ = 0
  · subst h0
    by_cases hz : vt ≤ 0
    · have hvz : vt = 0 := le_antisymm hz hvt0
      rw [hvz, zero_mul] at hsq
      have h1 : t₁ = 0 := by nlinarith [mul_self_nonneg t₁, mul_self_nonneg t₂]
      have h2 : t₂ = 0 := by nlinarith [mul_self_nonneg t₁, mul_self_nonneg t₂]
      rw [hc]
      simp only [zero_mul, hz, if_true, slide3, h1, h2]
      exact ⟨le_rfl, zero_le_one, by simp, 0, le_rfl, zero_le_one, by simp, fun _ => rfl, fun _ => rfl⟩
    · have hc1 : c = 1 := by rw [hc]; simp [hz]
      rw [hc1]
      simp only [slide3, if_true, one_mul]
      exact ⟨zero_le_one, le_rfl, trivial, 1, le_rfl, le_rfl, by simp, fun _ => rfl, fun h => h⟩
  by_cases h1 : vt ≤ μ * |n|
  · have hc0 : c = 0 := by rw [hc, if_pos h1]
    rw [hc0]
    simp only [slide3, if_neg h0, ← hvt, if_pos h1]
    exact ⟨le_rfl, zero_le_one, by simp, 0, le_rfl, zero_le_one, by simp, fun _ => rfl, fun _ => rfl⟩
  · have hlt : μ * |n| < vt := not_le.mp h1
    have hpos : 0 < vt := lt_of_le_of_lt hfn hlt
    have hcv : c = 1 - μ * |n| / vt := by rw [hc, if_neg h1]
    have hcvt : c * vt = vt - μ * |n| := by rw [hcv]; field_simp
    have hcpos : 0 < c := by
      rw [hcv, sub_pos, div_lt_one hpos]; exact hlt
    have hc1 : c ≤ 1 := by rw [hcv]; linarith [div_nonneg hfn hpos.le]
    have e1 : sgn t₁ * (vt - μ * |n|) / Real.sqrt (1 + t₂ * t₂ / (t₁ * t₁)) = c * t₁ := by
      by_cases ht : t₁ = 0
      · subst ht; simp [sgn]
      · rw [sqrt_ratio ht, ← hvt, ← hcvt]
        have := abs_pos.mpr ht
        conv_rhs => rw [← sgn_mul_abs t₁]
        field_simp
    have hfst : (slide3 μ t₁ t₂ n).1 = c * t₁ := by
      simp only [slide3, if_neg h0, ← hvt, if_neg h1]; exact e1
    have hsnd : (slide3 μ t₁ t₂ n).2 = sgn t₂ * (vt - μ * |n|) /
        Real.sqrt (1 + (c * t₁) * (c * t₁) / (t₂ * t₂)) := by
      simp only [slide3, if_neg h0, ← hvt, if_neg h1, e1]
    refine ⟨hcpos.le, hc1, hfst, ?_⟩
    by_cases ht : t₂ = 0
    · refine ⟨c, le_rfl, hc1, ?_, fun _ => rfl, fun h => h⟩
      rw [hsnd, ht]; simp [sgn]
    · set w := Real.sqrt (t₂ * t₂ + (c * t₁) * (c * t₁)) with hw
      have ht2 : 0 < t₂ * t₂ := mul_self_pos.mpr ht
      have hwpos : 0 < w := Real.sqrt_pos.mpr (by nlinarith [mul_self_nonneg (c * t₁)])
      have hwsq : w * w = t₂ * t₂ + (c * t₁) * (c * t₁) :=
        Real.mul_self_sqrt (by nlinarith [mul_self_nonneg (c * t₁)])
      have hwle : w ≤ vt := by
        apply Real.sqrt_le_sqrt
        have : (c * t₁) * (c * t₁) ≤ t₁ * t₁ := by
          have hcc : c * c ≤ 1 := by nlinarith
          nlinarith [mul_nonneg (sub_nonneg.mpr hcc) (mul_self_nonneg t₁)]
        linarith
      have hge : c * vt ≤ w := by
        rw [← abs_of_pos hwpos, ← abs_of_nonneg (mul_nonneg hcpos.le hvt0), ← sq_le_sq, sq, sq, hwsq]
        have : c * c ≤ 1 := by nlinarith
        nlinarith
      refine ⟨c * vt / w, ?_, ?_, ?_, ?_, fun h => absurd h hcpos.ne'⟩
      · rw [le_div_iff₀ hwpos]; exact mul_le_mul_of_nonneg_left hwle hcpos.le
      · rw [div_le_one hwpos]; exact hge
      · rw [hsnd, sqrt_ratio ht, ← hw, ← hcvt]
        have := abs_pos.mpr ht
        conv_rhs => rw [← sgn_mul_abs t₂]
        field_simp
      · intro h
        have : w = vt := by rw [hw, hvt, h]; congr 1; ring
        rw [this]; field_simp

/-- What holds for the treatment of the relative velocity by a 3D plate whose normal component is to be removed. -/
lemma plateRel3_slide {type : PlateType} {bc : BC} {μ : ℝ} (hμ : 0 ≤ μ) (r : Fin 3 → ℝ)
    (hbc : bc = .slipStick ∨ (bc = .slipFree ∧ r ⬝ᵥ normal3 type < 0)) :
    let vn := r ⬝ᵥ normal3 type
    let t := r - vn • normal3 type
    ∃ a b : Fin 3, a < b ∧ normal3 type a = 0 ∧ normal3 type b = 0 ∧
      plateRel3 type bc μ r ⬝ᵥ normal3 type = 0 ∧
      plateRel3 type bc μ r a = (coulomb μ vn t) a ∧
      ∃ c₂, coulombFactor μ vn (vnorm t) ≤ c₂ ∧ c₂ ≤ 1 ∧ plateRel3 type bc μ r b = c₂ * t b ∧
        (t a = 0 → plateRel3 type bc μ r = coulomb μ vn t) ∧
        (coulomb μ vn t = 0 → plateRel3 type bc μ r = 0) := by
  have hco : ∀ (vn : ℝ) (t : Fin 3 → ℝ), coulomb μ vn t = coulombFactor μ vn (vnorm t) • t := by
    intro vn t; unfold coulomb coulombFactor; split_ifs <;> simp
  have hzero : ∀ (vn : ℝ) (t : Fin 3 → ℝ), coulombFactor μ vn (vnorm t) • t = 0 →
      coulombFactor μ vn (vnorm t) = 0 ∨ t = 0 := fun vn t h => smul_eq_zero.mp h
  have habs : ∀ vn len, coulombFactor μ (-vn) len = coulombFactor μ vn len := by
    intro vn len; unfold coulombFactor; rw [abs_neg]
  have core : ∀ (a b k : Fin 3) (s : ℝ), (s = 1 ∨ s = -1) → a ≠ b → a ≠ k → b ≠ k →
      normal3 type = Pi.single k s →
      (plateRel3 type bc μ r a = (slide3 μ (r a) (r b) (r k)).1) →
      (plateRel3 type bc μ r b = (slide3 μ (r a) (r b) (r k)).2) →
      (plateRel3 type bc μ r k = 0) →
      let vn := r ⬝ᵥ normal3 type
      let t := r - vn • normal3 type
      normal3 type a = 0 ∧ normal3 type b = 0 ∧
      plateRel3 type bc μ r ⬝ᵥ normal3 type = 0 ∧
      plateRel3 type bc μ r a = (coulomb μ vn t) a ∧
      ∃ c₂, coulombFactor μ vn (vnorm t) ≤ c₂ ∧ c₂ ≤ 1 ∧ plateRel3 type bc μ r b = c₂ * t b ∧
        (t a = 0 → plateRel3 type bc μ r = coulomb μ vn t) ∧
        (coulomb μ vn t = 0 → plateRel3 type bc μ r = 0) := by
    intro a b k s hs hab hak hbk hn h1 h2 h3
    have hvn : r ⬝ᵥ normal3 type = r k * s := by rw [hn, dotProduct_single]
    have hss : s * s = 1 := by rcases hs with rfl | rfl <;> norm_num
    have hta : (r - (r k * s) • (Pi.single k s : Fin 3 → ℝ)) a = r a := by
      simp [Pi.single_eq_of_ne hak]
    have htb : (r - (r k * s) • (Pi.single k s : Fin 3 → ℝ)) b = r b := by
      simp [Pi.single_eq_of_ne hbk]
    have htk : (r - (r k * s) • (Pi.single k s : Fin 3 → ℝ)) k = 0 := by
      simp [mul_assoc, hss]
    have huniv : ∀ f : Fin 3 → ℝ, ∑ i, f i = f a + f b + f k := by
      intro f
      rw [Fin.sum_univ_three]
      fin_cases a <;> fin_cases b <;> fin_cases k <;> simp_all <;> ring
    have hall : ∀ i : Fin 3, i = a ∨ i = b ∨ i = k := by
      intro i; fin_cases i <;> fin_cases a <;> fin_cases b <;> fin_cases k <;> simp_all
    have hnorm : vnorm (r - (r k * s) • (Pi.single k s : Fin 3 → ℝ)) =
        Real.sqrt (r a * r a + r b * r b) := by
      unfold vnorm
      rw [dotProduct, huniv, hta, htb, htk]
      congr 1; ring
    have hcf : ∀ len, coulombFactor μ (r k * s) len = coulombFactor μ (r k) len := by
      intro len
      rcases hs with rfl | rfl
      · rw [mul_one]
      · rw [mul_neg_one, habs]
    obtain ⟨g0, g1, g2, c₂, g3, g4, g5, g6, g7⟩ := slide3_spec (t₁ := r a) (t₂ := r b) (n := r k) hμ
    simp only [hn, dotProduct_single, hco]
    refine ⟨Pi.single_eq_of_ne hak _, Pi.single_eq_of_ne hbk _, ?_, ?_, c₂, ?_, g4, ?_, ?_, ?_⟩
    · rw [h3, zero_mul]
    · rw [h1, g2, Pi.smul_apply, smul_eq_mul, hta, hcf, hnorm]
    · rw [hcf, hnorm]; exact g3
    · rw [h2, g5, htb]
    · intro h
      rw [hta] at h
      funext i
      rcases hall i with rfl | rfl | rfl
      · rw [h1, g2, Pi.smul_apply, smul_eq_mul, hta, hcf, hnorm]
      · rw [h2, g5, Pi.smul_apply, smul_eq_mul, htb, hcf, hnorm, g6 h]
      · rw [h3, Pi.smul_apply, smul_eq_mul, htk, mul_zero]
    · intro h
      rcases smul_eq_zero.mp h with h | h
      · rw [hcf, hnorm] at h
        funext i
        rcases hall i with rfl | rfl | rfl
        · rw [h1, g2, h, zero_mul]; rfl
        · rw [h2, g5, g7 h, zero_mul]; rfl
        · exact h3
      · have ha : r a = 0 := by rw [← hta, h]; rfl
        have hb : r b = 0 := by rw [← htb, h]; rfl
        funext i
        rcases hall i with rfl | rfl | rfl
        · rw [h1, g2, ha, mul_zero]; rfl
        · rw [h2, g5, hb, mul_zero]; rfl
        · exact h3
  have single : ∀ (t : PlateType), normal3 t = match t with
      | .left => Pi.single 0 1 | .right => Pi.single 0 (-1) | .bottom => Pi.single 1 1
      | .top => Pi.single 1 (-1) | .back => Pi.single 2 1 | .front => Pi.single 2 (-1) := by
    intro t
    cases t <;> (funext i; fin_cases i <;> simp [normal3])
  intro vn t
  rcases hbc with rfl | ⟨rfl, hneg⟩
  · cases type
    · exact ⟨0, 2, by decide, core 0 2 1 (-1) (by simp) (by decide) (by decide) (by decide)
        (single _) (by simp [plateRel3]) (by simp [plateRel3]) (by simp [plateRel3])⟩
    · exact ⟨0, 2, by decide, core 0 2 1 1 (by simp) (by decide) (by decide) (by decide)
        (single _) (by simp [plateRel3]) (by simp [plateRel3]) (by simp [plateRel3])⟩
    · exact ⟨1, 2, by decide, core 1 2 0 1 (by simp) (by decide) (by decide) (by decide)
        (single _) (by simp [plateRel3]) (by simp [plateRel3]) (by simp [plateRel3])⟩
    · exact ⟨1, 2, by decide, core 1 2 0 (-1) (by simp) (by decide) (by decide) (by decide)
        (single _) (by simp [plateRel3]) (by simp [plateRel3]) (by simp [plateRel3])⟩
    · exact ⟨0, 1, by decide, core 0 1 2 (-1) (by simp) (by decide) (by decide) (by decide)
        (single _) (by simp [plateRel3]) (by simp [plateRel3]) (by simp [plateRel3])⟩
    · exact ⟨0, 1, by decide, core 0 1 2 1 (by simp) (by decide) (by decide) (by decide)
        (single _) (by simp [plateRel3]) (by simp [plateRel3]) (by simp [plateRel3])⟩
  · rw [single] at hneg
    cases type
    · have h : r 1 > 0 := by simpa [dotProduct_single] using hneg
      exact ⟨0, 2, by decide, core 0 2 1 (-1) (by simp) (by decide) (by decide) (by decide)
        (single _) (by simp [plateRel3, h]) (by simp [plateRel3, h]) (by simp [plateRel3, h])⟩
    · have h : r 1 < 0 := by simpa [dotProduct_single] using hneg
      exact ⟨0, 2, by decide, core 0 2 1 1 (by simp) (by decide) (by decide) (by decide)
        (single _) (by simp [plateRel3, h]) (by simp [plateRel3, h]) (by simp [plateRel3, h])⟩
    · have h : r 0 < 0 := by simpa [dotProduct_single] using hneg
      exact ⟨1, 2, by decide, core 1 2 0 1 (by simp) (by decide) (by decide) (by decide)
        (single _) (by simp [plateRel3, h]) (by simp [plateRel3, h]) (by simp [plateRel3, h])⟩
    · have h : r 0 > 0 := by simpa [dotProduct_single] using hneg
      exact ⟨1, 2, by decide, core 1 2 0 (-1) (by simp) (by decide) (by decide) (by decide)
        (single _) (by simp [plateRel3, h]) (by simp [plateRel3, h]) (by simp [plateRel3, h])⟩
    · have h : r 2 > 0 := by simpa [dotProduct_single] using hneg
      exact ⟨0, 1, by decide, core 0 1 2 (-1) (by simp) (by decide) (by decide) (by decide)
        (single _) (by simp [plateRel3, h]) (by simp [plateRel3, h]) (by simp [plateRel3, h])⟩
    · have h : r 2 < 0 := by simpa [dotProduct_single] using hneg
      exact ⟨0, 1, by decide, core 0 1 2 1 (by simp) (by decide) (by decide) (by decide)
        (single _) (by simp [plateRel3, h]) (by simp [plateRel3, h]) (by simp [plateRel3, h])⟩

/-- **C29** (3D plates; full statement: the relative velocity after the collision is `wallLaw`, as in 2D, false by
`C29_plate3_false`) If a plate with friction at least 0 is the only wall a node hits: no-slip stops it, slip-free leaves
a receding node alone. Where the normal component is to be removed, it vanishes; the tangential component along the first
axis is reduced exactly as by Coulomb's law; the one along the second axis keeps its sign, is not increased, is reduced
at most as much as Coulomb's law demands, and exactly as much if the first vanishes or if the node sticks.
Missing: the exact reduction of the second component. -/
theorem C29_plate3_partial {objs : List (GenObject 3)} {pre post : List (Plate 3)} {p : Plate 3}
    {X v : Fin 3 → ℝ} (hμ : 0 ≤ frictionAt useMibf gf index p.friction)
    (hp : Behind3 p (X + dt • v)) (hothers : ∀ q ∈ pre ++ post, ¬ Behind3 q (X + dt • v))
    (hobj : ∀ o ∈ objs, ¬ o.inside (X + dt • v)) :
    let μ := frictionAt useMibf gf index p.friction
    let n := normal3 p.type
    let r := v - p.vel
    let vn := r ⬝ᵥ n
    let t := r - vn • n
    let u := boundaryCollision3 useMibf gf dt objs (pre ++ p :: post) index X v - p.vel
    (p.bc = .noSlip → u = 0) ∧ (p.bc = .slipFree → 0 ≤ vn → u = r) ∧
    (p.bc = .slipStick ∨ (p.bc = .slipFree ∧ vn < 0) →
      ∃ a b : Fin 3, a < b ∧ n a = 0 ∧ n b = 0 ∧ u ⬝ᵥ n = 0 ∧ u a = (coulomb μ vn t) a ∧
        ∃ c₂, coulombFactor μ vn (vnorm t) ≤ c₂ ∧ c₂ ≤ 1 ∧ u b = c₂ * t b ∧
          (t a = 0 → u = coulomb μ vn t) ∧ (coulomb μ vn t = 0 → u = 0)) := by
  intro μ n r vn t u
  have hu : u = plateRel3 p.type p.bc μ r := by
    show boundaryCollision3 useMibf gf dt objs (pre ++ p :: post) index X v - p.vel = _
    simp only [boundaryCollision3, wallFriction_eq, collidePlates_append]
    rw [collidePlates_cons _ _ ((inside3_iff _ _).mpr hp),
      collidePlates_none fun q hq h => hothers q (by simp [hq]) ((inside3_iff _ _).mp h),
      collidePlates_none fun q hq h => hothers q (by simp [hq]) ((inside3_iff _ _).mp h),
      collideObjects_none hobj, add_sub_cancel_right]
  refine ⟨fun h => ?_, fun h h0 => ?_, fun h => ?_⟩
  · rw [hu, h]; simp [plateRel3]
  · rw [hu, h]
    have h1 : 0 ≤ r ⬝ᵥ normal3 p.type := h0
    revert h1
    cases p.type <;> simp [plateRel3, normal3, dotProduct, Fin.sum_univ_three] <;> intro h1 h2 <;> linarith
  · rw [hu]
    exact plateRel3_slide hμ r h

/-- The exact Coulomb law fails for 3D plates: relative velocity `(3, -1, 4)` at a bottom plate with
friction 1. Coulomb's law gives `(2.4, 0, 3.2)`; the code gives `(2.4, 0, 4 / sqrt 1.36)`. -/
lemma plateRel3_false :
    plateRel3 .bottom .slipStick 1 ![3, -1, 4] ≠ wallLaw .slipStick 1 (normal3 .bottom) ![3, -1, 4] ∧
    plateRel3 .bottom .slipStick 1 ![3, -1, 4] 2 > wallLaw .slipStick 1 (normal3 .bottom) ![3, -1, 4] 2 := by
  have s5 : Real.sqrt 25 = 5 := by
    rw [show (25 : ℝ) = 5 * 5 by norm_num]; exact Real.sqrt_mul_self (by norm_num)
  have hlaw : wallLaw .slipStick 1 (normal3 .bottom) ![3, -1, 4] 2 = 16 / 5 := by
    have ht : (![3, -1, 4] : Fin 3 → ℝ) - ((![3, -1, 4] : Fin 3 → ℝ) ⬝ᵥ ![0, 1, 0]) •
        (![0, 1, 0] : Fin 3 → ℝ) = ![3, 0, 4] := by
      funext a; fin_cases a <;> simp [dotProduct, Fin.sum_univ_three]
    have hd : (![3, -1, 4] : Fin 3 → ℝ) ⬝ᵥ ![0, 1, 0] = -1 := by
      simp [dotProduct, Fin.sum_univ_three]
    have hn : vnorm (![3, 0, 4] : Fin 3 → ℝ) = 5 := by
      unfold vnorm
      have : (![3, 0, 4] : Fin 3 → ℝ) ⬝ᵥ ![3, 0, 4] = 25 := by
        simp [dotProduct, Fin.sum_univ_three]; norm_num
      rw [this, s5]
    simp only [wallLaw, normal3]
    rw [ht, hd]
    unfold coulomb
    rw [hn, if_neg (by norm_num)]
    simp; norm_num
  have hcode : plateRel3 .bottom .slipStick 1 ![3, -1, 4] 2 > 16 / 5 := by
    have h1 : Real.sqrt (1 + 12 / 5 * (12 / 5) / (4 * 4)) < 5 / 4 := by
      rw [Real.sqrt_lt' (by norm_num)]; norm_num
    have h0 : 0 < Real.sqrt (1 + 12 / 5 * (12 / 5) / (4 * 4)) := Real.sqrt_pos.mpr (by norm_num)
    have e : Real.sqrt (1 + 4 * 4 / (3 * 3)) = 5 / 3 := by
      rw [show (1 + 4 * 4 / (3 * 3) : ℝ) = (5 / 3) * (5 / 3) by norm_num]
      exact Real.sqrt_mul_self (by norm_num)
    have hval : plateRel3 .bottom .slipStick 1 ![3, -1, 4] 2 =
        4 / Real.sqrt (1 + 12 / 5 * (12 / 5) / (4 * 4)) := by
      have hs : Real.sqrt (3 * 3 + 4 * 4) = 5 := by
        rw [show (3 * 3 + 4 * 4 : ℝ) = 25 by norm_num, s5]
      have g3 : sgn (3 : ℝ) = 1 := by norm_num [sgn]
      have g4 : sgn (4 : ℝ) = 1 := by norm_num [sgn]
      show (slide3 1 3 4 (-1)).2 = _
      simp only [slide3, hs, e, g3, g4]
      rw [if_neg one_ne_zero, if_neg (by norm_num)]
      norm_num
    rw [hval, gt_iff_lt, lt_div_iff₀ h0]
    linarith
  exact ⟨fun h => by rw [h, hlaw] at hcode; exact lt_irrefl _ hcode, by rw [hlaw]; exact hcode⟩

/-- The exact Coulomb law fails for 3D plates: a node with velocity `(3, -1, 4)` at a bottom plate with friction 1. -/
theorem C29_plate3_false : ∃ (p : Plate 3) (X v : Fin 3 → ℝ), Behind3 p (X + (1 : ℝ) • v) ∧ p.vel = 0 ∧
    p.bc = .slipStick ∧ p.friction = 1 ∧
    (boundaryCollision3 false (fun _ => 0) 1 [] [p] 0 X v ≠ wallLaw .slipStick 1 (normal3 p.type) v ∧
      wallLaw .slipStick 1 (normal3 p.type) v 2 < boundaryCollision3 false (fun _ => 0) 1 [] [p] 0 X v 2) := by
  have hp : Behind3 ⟨0, .bottom, .slipStick, 1, -100, 100, 0, 0, 1, 0⟩
      (![0, 0, 0] + (1 : ℝ) • ![3, -1, 4]) := by
    rw [← inside3_iff]
    simp [Plate.inside3]
    norm_num
  refine ⟨⟨0, .bottom, .slipStick, 1, -100, 100, 0, 0, 1, 0⟩, ![0, 0, 0], ![3, -1, 4], hp, rfl, rfl, rfl, ?_⟩
  have e : boundaryCollision3 false (fun _ => 0) 1 [] [⟨0, .bottom, .slipStick, 1, -100, 100, 0, 0, 1, 0⟩] 0
      ![0, 0, 0] ![3, -1, 4] = plateRel3 .bottom .slipStick 1 ![3, -1, 4] := by
    simp only [boundaryCollision3, wallFriction_eq]
    rw [collidePlates_cons _ _ ((inside3_iff _ _).mpr hp), collideObjects_none (by simp),
      collidePlates_none (by simp)]
    simp [frictionAt]
  rw [e]
  exact plateRel3_false

/-! ### C28, C30 -/

/-- Every component of `r'` is the one of `r` multiplied by a number between 0 and 1. -/
def Shrinks {d : ℕ} (r r' : Fin d → ℝ) : Prop := ∀ a, ∃ c, 0 ≤ c ∧ c ≤ 1 ∧ r' a = c * r a

lemma Shrinks.refl {d : ℕ} (r : Fin d → ℝ) : Shrinks r r :=
  fun _ => ⟨1, zero_le_one, le_rfl, (one_mul _).symm⟩

lemma Shrinks.trans {d : ℕ} {r r' r'' : Fin d → ℝ} (h : Shrinks r r') (h' : Shrinks r' r'') :
    Shrinks r r'' := fun a => by
  obtain ⟨c, h0, h1, e⟩ := h a
  obtain ⟨c', h0', h1', e'⟩ := h' a
  exact ⟨c' * c, mul_nonneg h0' h0, by nlinarith, by rw [e', e, mul_assoc]⟩

lemma Shrinks.energy {d : ℕ} {r r' : Fin d → ℝ} (h : Shrinks r r') : r' ⬝ᵥ r' ≤ r ⬝ᵥ r := by
  refine Finset.sum_le_sum fun a _ => ?_
  obtain ⟨c, h0, h1, e⟩ := h a
  rw [e]
  have hcc : c * c ≤ 1 := by nlinarith
  nlinarith [mul_nonneg (sub_nonneg.mpr hcc) (mul_self_nonneg (r a))]

lemma slide2_shrinks {μ t n : ℝ} (hμ : 0 ≤ μ) : ∃ c, 0 ≤ c ∧ c ≤ 1 ∧ slide2 μ t n = c * t := by
  rw [slide2_eq hμ]
  split_ifs with h
  · exact ⟨0, le_rfl, zero_le_one, by simp⟩
  · have h' := not_le.mp h
    have hpos : 0 < |t| := lt_of_le_of_lt (mul_nonneg hμ (abs_nonneg n)) h'
    have : μ * |n| / |t| ≤ 1 := (div_le_one hpos).mpr h'.le
    have h2 : 0 ≤ μ * |n| / |t| := div_nonneg (mul_nonneg hμ (abs_nonneg n)) hpos.le
    exact ⟨_, by linarith, by linarith, rfl⟩

lemma plateRel2_shrinks {type : PlateType} {bc : BC} {μ : ℝ} (hμ : 0 ≤ μ) (r : Fin 2 → ℝ) :
    Shrinks r (plateRel2 type bc μ r) := by
  have z : ∀ x : ℝ, ∃ c, 0 ≤ c ∧ c ≤ 1 ∧ (0 : ℝ) = c * x := fun x => ⟨0, le_rfl, zero_le_one, by simp⟩
  have hx : Shrinks r ![slide2 μ (r 0) (r 1), 0] := by
    intro a; fin_cases a
    · exact slide2_shrinks hμ
    · exact z _
  have hy : Shrinks r ![0, slide2 μ (r 1) (r 0)] := by
    intro a; fin_cases a
    · exact z _
    · exact slide2_shrinks hμ
  have h0 : Shrinks r ![0, 0] := by intro a; fin_cases a <;> exact z _
  cases bc
  · exact h0
  · simp only [plateRel2]; split_ifs
    · exact hx
    · exact hy
    · exact Shrinks.refl r
  · simp only [plateRel2]; split_ifs
    · exact hx
    · exact hy
    · exact Shrinks.refl r

lemma plateRel3_shrinks {type : PlateType} {bc : BC} {μ : ℝ} (hμ : 0 ≤ μ) (r : Fin 3 → ℝ) :
    Shrinks r (plateRel3 type bc μ r) := by
  have z : ∀ x : ℝ, ∃ c, 0 ≤ c ∧ c ≤ 1 ∧ (0 : ℝ) = c * x := fun x => ⟨0, le_rfl, zero_le_one, by simp⟩
  have hs : ∀ a b k : ℝ, (∃ c, 0 ≤ c ∧ c ≤ 1 ∧ (slide3 μ a b k).1 = c * a) ∧
      (∃ c, 0 ≤ c ∧ c ≤ 1 ∧ (slide3 μ a b k).2 = c * b) := by
    intro a b k
    obtain ⟨g0, g1, g2, c₂, g3, g4, g5, _, _⟩ := slide3_spec (t₁ := a) (t₂ := b) (n := k) hμ
    exact ⟨⟨_, g0, g1, g2⟩, ⟨c₂, le_trans g0 g3, g4, g5⟩⟩
  have hxz : Shrinks r ![(slide3 μ (r 0) (r 2) (r 1)).1, 0, (slide3 μ (r 0) (r 2) (r 1)).2] := by
    intro a; fin_cases a
    · exact (hs _ _ _).1
    · exact z _
    · exact (hs _ _ _).2
  have hyz : Shrinks r ![0, (slide3 μ (r 1) (r 2) (r 0)).1, (slide3 μ (r 1) (r 2) (r 0)).2] := by
    intro a; fin_cases a
    · exact z _
    · exact (hs _ _ _).1
    · exact (hs _ _ _).2
  have hxy : Shrinks r ![(slide3 μ (r 0) (r 1) (r 2)).1, (slide3 μ (r 0) (r 1) (r 2)).2, 0] := by
    intro a; fin_cases a
    · exact (hs _ _ _).1
    · exact (hs _ _ _).2
    · exact z _
  have h0 : Shrinks r ![0, 0, 0] := by intro a; fin_cases a <;> exact z _
  cases bc
  · exact h0
  · simp only [plateRel3]; split_ifs
    · exact hxz
    · exact hyz
    · exact hxy
    · exact Shrinks.refl r
  · simp only [plateRel3]; split_ifs
    · exact hxz
    · exact hyz
    · exact hxy
    · exact Shrinks.refl r

lemma Shrinks.normal {d : ℕ} {r r' n : Fin d → ℝ} (h : Shrinks r r')
    (hn : ∃ k s, n = Pi.single k s ∨ n = 0) :
    (0 ≤ r ⬝ᵥ n → 0 ≤ r' ⬝ᵥ n) ∧ (r ⬝ᵥ n = 0 → r' ⬝ᵥ n = 0) := by
  obtain ⟨k, s, rfl | rfl⟩ := hn
  · obtain ⟨c, h0, h1, e⟩ := h k
    rw [dotProduct_single, dotProduct_single, e, mul_assoc]
    exact ⟨fun g => mul_nonneg h0 g, fun g => by rw [g, mul_zero]⟩
  · simp

lemma normal2_axis (t : PlateType) : ∃ k s, normal2 t = Pi.single k s ∨ normal2 t = 0 := by
  cases t
  · exact ⟨1, -1, Or.inl (by funext i; fin_cases i <;> simp [normal2])⟩
  · exact ⟨1, 1, Or.inl (by funext i; fin_cases i <;> simp [normal2])⟩
  · exact ⟨0, 1, Or.inl (by funext i; fin_cases i <;> simp [normal2])⟩
  · exact ⟨0, -1, Or.inl (by funext i; fin_cases i <;> simp [normal2])⟩
  · exact ⟨0, 1, Or.inr (by funext i; fin_cases i <;> simp [normal2])⟩
  · exact ⟨0, 1, Or.inr (by funext i; fin_cases i <;> simp [normal2])⟩

lemma normal3_axis (t : PlateType) : ∃ k s, normal3 t = Pi.single k s ∨ normal3 t = 0 := by
  cases t
  · exact ⟨1, -1, Or.inl (by funext i; fin_cases i <;> simp [normal3])⟩
  · exact ⟨1, 1, Or.inl (by funext i; fin_cases i <;> simp [normal3])⟩
  · exact ⟨0, 1, Or.inl (by funext i; fin_cases i <;> simp [normal3])⟩
  · exact ⟨0, -1, Or.inl (by funext i; fin_cases i <;> simp [normal3])⟩
  · exact ⟨2, -1, Or.inl (by funext i; fin_cases i <;> simp [normal3])⟩
  · exact ⟨2, 1, Or.inl (by funext i; fin_cases i <;> simp [normal3])⟩

lemma plateRel2_normal {type : PlateType} {bc : BC} {μ : ℝ} (r : Fin 2 → ℝ) :
    0 ≤ plateRel2 type bc μ r ⬝ᵥ normal2 type ∧
      (bc ≠ .slipFree → plateRel2 type bc μ r ⬝ᵥ normal2 type = 0) := by
  cases bc
  · cases type <;> simp [plateRel2, normal2, dotProduct]
  · cases type <;> simp [plateRel2, normal2, dotProduct]
  · cases type <;> simp [plateRel2, normal2, dotProduct] <;> split_ifs <;> simp_all

lemma plateRel3_normal {type : PlateType} {bc : BC} {μ : ℝ} (r : Fin 3 → ℝ) :
    0 ≤ plateRel3 type bc μ r ⬝ᵥ normal3 type ∧
      (bc ≠ .slipFree → plateRel3 type bc μ r ⬝ᵥ normal3 type = 0) := by
  cases bc
  · cases type <;> simp [plateRel3, normal3, dotProduct, Fin.sum_univ_three]
  · cases type <;> simp [plateRel3, normal3, dotProduct, Fin.sum_univ_three]
  · cases type <;> simp [plateRel3, normal3, dotProduct, Fin.sum_univ_three] <;> split_ifs <;> simp_all

section multi
variable {d : ℕ} {inside : Plate d → (Fin d → ℝ) → Prop}
  {rel : PlateType → BC → ℝ → (Fin d → ℝ) → (Fin d → ℝ)} {fr : ℝ → ℝ} {X : Fin d → ℝ}
  {V : Fin d → ℝ} {nrm : PlateType → Fin d → ℝ}

lemma collidePlates_shrinks {L : List (Plate d)}
    (hsh : ∀ p ∈ L, inside p X → ∀ r, Shrinks r (rel p.type p.bc (fr p.friction) r))
    (hV : ∀ p ∈ L, inside p X → p.vel = V) (v : Fin d → ℝ) :
    Shrinks (v - V) (collidePlates inside rel fr X L v - V) := by
  induction L generalizing v with
  | nil => exact Shrinks.refl _
  | cons p L ih =>
    have ih' := fun w => ih (fun q hq => hsh q (by simp [hq])) (fun q hq => hV q (by simp [hq])) w
    by_cases hp : inside p X
    · rw [collidePlates_cons p L hp]
      refine Shrinks.trans ?_ (ih' _)
      rw [hV p (by simp) hp, add_sub_cancel_right]
      exact hsh p (by simp) hp _
    · rw [show p :: L = [p] ++ L from rfl, collidePlates_append,
        collidePlates_none (L := [p]) (fun q hq => by rw [List.mem_singleton.mp hq]; exact hp)]
      exact ih' v

lemma collidePlates_normal {L : List (Plate d)}
    (hsh : ∀ p ∈ L, inside p X → ∀ r, Shrinks r (rel p.type p.bc (fr p.friction) r))
    (hV : ∀ p ∈ L, inside p X → p.vel = V)
    (hax : ∀ t, ∃ k s, nrm t = Pi.single k s ∨ nrm t = 0)
    (hrel : ∀ t bc μ r, 0 ≤ rel t bc μ r ⬝ᵥ nrm t ∧ (bc ≠ .slipFree → rel t bc μ r ⬝ᵥ nrm t = 0))
    (v : Fin d → ℝ) {p : Plate d} (hp : p ∈ L) (hin : inside p X) :
    0 ≤ (collidePlates inside rel fr X L v - V) ⬝ᵥ nrm p.type ∧
      (p.bc ≠ .slipFree → (collidePlates inside rel fr X L v - V) ⬝ᵥ nrm p.type = 0) := by
  obtain ⟨pre, post, rfl⟩ := List.append_of_mem hp
  rw [collidePlates_append, collidePlates_cons p post hin]
  set w := collidePlates inside rel fr X pre v
  have hs := collidePlates_shrinks (L := post) (V := V) (fun q hq => hsh q (by simp [hq]))
    (fun q hq => hV q (by simp [hq])) (rel p.type p.bc (fr p.friction) (w - p.vel) + p.vel)
  have hv := hV p (by simp) hin
  have e : rel p.type p.bc (fr p.friction) (w - p.vel) + p.vel - V =
      rel p.type p.bc (fr p.friction) (w - p.vel) := by rw [hv, add_sub_cancel_right]
  rw [e] at hs
  obtain ⟨h1, h2⟩ := hs.normal (hax p.type)
  obtain ⟨h3, h4⟩ := hrel p.type p.bc (fr p.friction) (w - p.vel)
  exact ⟨h1 h3, fun hb => h2 (h4 hb)⟩

end multi

/-- **C28** (2D) Plates are not penetrated: the velocity of a node relative to the plates it is behind
has no component into any of them, and none away from the non-separating ones; also in corners (all
plates hit move with the same velocity `V`, e.g. are at rest), whatever objects were treated before. -/
theorem C28_plates2 {objs : List (GenObject 2)} {plates : List (Plate 2)} {X v V : Fin 2 → ℝ}
    (hμ : ∀ p ∈ plates, 0 ≤ frictionAt useMibf gf index p.friction)
    (hV : ∀ p ∈ plates, Behind2 p (X + dt • v) → p.vel = V) {p : Plate 2} (hp : p ∈ plates)
    (hb : Behind2 p (X + dt • v)) :
    let u := boundaryCollision2 useMibf gf dt objs plates index X v - V
    0 ≤ u ⬝ᵥ normal2 p.type ∧ (p.bc ≠ .slipFree → u ⬝ᵥ normal2 p.type = 0) :=
  collidePlates_normal (fun q hq _ r => plateRel2_shrinks (hμ q hq) r)
    (fun q hq h => hV q hq ((inside2_iff _ _).mp h)) normal2_axis
    (fun _ _ _ _ => plateRel2_normal _) _ hp ((inside2_iff _ _).mpr hb)

/-- **C28** (3D) -/
theorem C28_plates3 {objs : List (GenObject 3)} {plates : List (Plate 3)} {X v V : Fin 3 → ℝ}
    (hμ : ∀ p ∈ plates, 0 ≤ frictionAt useMibf gf index p.friction)
    (hV : ∀ p ∈ plates, Behind3 p (X + dt • v) → p.vel = V) {p : Plate 3} (hp : p ∈ plates)
    (hb : Behind3 p (X + dt • v)) :
    let u := boundaryCollision3 useMibf gf dt objs plates index X v - V
    0 ≤ u ⬝ᵥ normal3 p.type ∧ (p.bc ≠ .slipFree → u ⬝ᵥ normal3 p.type = 0) :=
  collidePlates_normal (fun q hq _ r => plateRel3_shrinks (hμ q hq) r)
    (fun q hq h => hV q hq ((inside3_iff _ _).mp h)) normal3_axis
    (fun _ _ _ _ => plateRel3_normal _) _ hp ((inside3_iff _ _).mpr hb)

lemma coulomb_dot {d : ℕ} {μ vn : ℝ} {t n : Fin d → ℝ} (h : t ⬝ᵥ n = 0) : coulomb μ vn t ⬝ᵥ n = 0 := by
  unfold coulomb; split_ifs
  · simp
  · rw [smul_dotProduct, h, smul_zero]

lemma tangential_dot {d : ℕ} {n : Fin d → ℝ} (hn : n ⬝ᵥ n = 1) (r : Fin d → ℝ) :
    (r - (r ⬝ᵥ n) • n) ⬝ᵥ n = 0 := by
  rw [sub_dotProduct, smul_dotProduct, hn, smul_eq_mul, mul_one, sub_self]

lemma wallLaw_normal {d : ℕ} {bc : BC} {μ : ℝ} {n r : Fin d → ℝ} (hn : n ⬝ᵥ n = 1) :
    0 ≤ wallLaw bc μ n r ⬝ᵥ n ∧ (bc ≠ .slipFree → wallLaw bc μ n r ⬝ᵥ n = 0) := by
  cases bc
  · simp [wallLaw]
  · simp only [wallLaw, coulomb_dot (tangential_dot hn r)]
    exact ⟨le_rfl, fun _ => trivial⟩
  · simp only [wallLaw]
    refine ⟨?_, fun h => absurd rfl h⟩
    split_ifs with h
    · rw [coulomb_dot (tangential_dot hn r)]
    · exact not_lt.mp h

/-- **C28** (terrain objects with unit normals, e.g. those of C33) A node inside one object and no
other wall does not move into it. -/
theorem C28_object2 {pre post : List (GenObject 2)} {o : GenObject 2} {plates : List (Plate 2)}
    {X v : Fin 2 → ℝ} (hμ : 0 ≤ frictionAt useMibf gf index o.friction)
    (hn : o.normal (X + dt • v) ⬝ᵥ o.normal (X + dt • v) = 1)
    (ho : o.inside (X + dt • v)) (hothers : ∀ q ∈ pre ++ post, ¬ q.inside (X + dt • v))
    (hpl : ∀ q ∈ plates, ¬ Behind2 q (X + dt • v)) :
    let u := boundaryCollision2 useMibf gf dt (pre ++ o :: post) plates index X v
    0 ≤ u ⬝ᵥ o.normal (X + dt • v) ∧ (o.bc ≠ .slipFree → u ⬝ᵥ o.normal (X + dt • v) = 0) := by
  rw [C29_object2 hμ ho hothers hpl]; exact wallLaw_normal hn

/-- **C28** same in 3D. -/
theorem C28_object3 {pre post : List (GenObject 3)} {o : GenObject 3} {plates : List (Plate 3)}
    {X v : Fin 3 → ℝ} (hμ : 0 ≤ frictionAt useMibf gf index o.friction)
    (hn : o.normal (X + dt • v) ⬝ᵥ o.normal (X + dt • v) = 1)
    (ho : o.inside (X + dt • v)) (hothers : ∀ q ∈ pre ++ post, ¬ q.inside (X + dt • v))
    (hpl : ∀ q ∈ plates, ¬ Behind3 q (X + dt • v)) :
    let u := boundaryCollision3 useMibf gf dt (pre ++ o :: post) plates index X v
    0 ≤ u ⬝ᵥ o.normal (X + dt • v) ∧ (o.bc ≠ .slipFree → u ⬝ᵥ o.normal (X + dt • v) = 0) := by
  rw [C29_object3 hμ ho hothers hpl]; exact wallLaw_normal hn

lemma coulomb_energy {d : ℕ} {μ vn : ℝ} (hμ : 0 ≤ μ) (t : Fin d → ℝ) :
    coulomb μ vn t ⬝ᵥ coulomb μ vn t ≤ t ⬝ᵥ t := by
  unfold coulomb
  split_ifs with h
  · simpa using dot_self_nonneg t
  · have h' := not_le.mp h
    have h0 := mul_nonneg hμ (abs_nonneg vn)
    have hpos : 0 < vnorm t := lt_of_le_of_lt h0 h'
    have h1 : μ * |vn| / vnorm t ≤ 1 := (div_le_one hpos).mpr h'.le
    have h2 : 0 ≤ μ * |vn| / vnorm t := div_nonneg h0 hpos.le
    rw [smul_dotProduct, dotProduct_smul, smul_eq_mul, smul_eq_mul]
    have := dot_self_nonneg t
    set c := 1 - μ * |vn| / vnorm t
    have hc0 : 0 ≤ c := by linarith
    have hc1 : c ≤ 1 := by linarith
    have hcc : c * c ≤ 1 := by nlinarith
    nlinarith

lemma wallLaw_energy {d : ℕ} {bc : BC} {μ : ℝ} {n r : Fin d → ℝ} (hn : n ⬝ᵥ n = 1) (hμ : 0 ≤ μ) :
    wallLaw bc μ n r ⬝ᵥ wallLaw bc μ n r ≤ r ⬝ᵥ r := by
  have ht : (r - (r ⬝ᵥ n) • n) ⬝ᵥ (r - (r ⬝ᵥ n) • n) ≤ r ⬝ᵥ r := by
    rw [dotProduct_sub, dotProduct_smul, tangential_dot hn, smul_zero, sub_zero, sub_dotProduct,
      smul_dotProduct, dotProduct_comm n r, smul_eq_mul]
    nlinarith [mul_self_nonneg (r ⬝ᵥ n)]
  cases bc
  · simpa [wallLaw] using dot_self_nonneg r
  · exact (coulomb_energy hμ _).trans ht
  · simp only [wallLaw]
    split_ifs
    · exact (coulomb_energy hμ _).trans ht
    · exact le_rfl

lemma collideObjects_energy {d : ℕ} {fr : ℝ → ℝ} {X : Fin d → ℝ} {L : List (GenObject d)}
    (hμ : ∀ o ∈ L, 0 ≤ fr o.friction) (hn : ∀ o ∈ L, o.inside X → o.normal X ⬝ᵥ o.normal X = 1)
    (v : Fin d → ℝ) : collideObjects fr X L v ⬝ᵥ collideObjects fr X L v ≤ v ⬝ᵥ v := by
  induction L generalizing v with
  | nil => exact le_rfl
  | cons o L ih =>
    have ih' := fun w => ih (fun q hq => hμ q (by simp [hq])) (fun q hq => hn q (by simp [hq])) w
    by_cases ho : o.inside X
    · rw [collideObjects_cons o L ho]
      refine (ih' _).trans ?_
      rw [objectRel_eq (hμ o (by simp))]
      refine wallLaw_energy (hn o (by simp) ho) ?_
      split_ifs
      · exact hμ o (by simp)
      · exact le_rfl
    · rw [show o :: L = [o] ++ L from rfl, collideObjects_append,
        collideObjects_none (L := [o]) (fun q hq => by rw [List.mem_singleton.mp hq]; exact ho)]
      exact ih' v

/-- **C30** (2D) Walls at rest never increase the speed of a node, however many it hits. -/
theorem C30_energy2 {objs : List (GenObject 2)} {plates : List (Plate 2)} {X v : Fin 2 → ℝ}
    (hμ : ∀ p ∈ plates, 0 ≤ frictionAt useMibf gf index p.friction)
    (hμ' : ∀ o ∈ objs, 0 ≤ frictionAt useMibf gf index o.friction)
    (hn : ∀ o ∈ objs, o.inside (X + dt • v) → o.normal (X + dt • v) ⬝ᵥ o.normal (X + dt • v) = 1)
    (hV : ∀ p ∈ plates, Behind2 p (X + dt • v) → p.vel = 0) :
    let u := boundaryCollision2 useMibf gf dt objs plates index X v
    u ⬝ᵥ u ≤ v ⬝ᵥ v := by
  have h1 := collideObjects_energy hμ' hn v
  have h2 := (collidePlates_shrinks (inside := Plate.inside2) (V := 0)
    (fun q hq _ r => plateRel2_shrinks (hμ q hq) r)
    (fun q hq h => hV q hq ((inside2_iff _ _).mp h))
    (collideObjects (wallFriction useMibf gf index) (X + dt • v) objs v)).energy
  rw [sub_zero, sub_zero] at h2
  exact h2.trans h1

/-- **C30** (3D) -/
theorem C30_energy3 {objs : List (GenObject 3)} {plates : List (Plate 3)} {X v : Fin 3 → ℝ}
    (hμ : ∀ p ∈ plates, 0 ≤ frictionAt useMibf gf index p.friction)
    (hμ' : ∀ o ∈ objs, 0 ≤ frictionAt useMibf gf index o.friction)
    (hn : ∀ o ∈ objs, o.inside (X + dt • v) → o.normal (X + dt • v) ⬝ᵥ o.normal (X + dt • v) = 1)
    (hV : ∀ p ∈ plates, Behind3 p (X + dt • v) → p.vel = 0) :
    let u := boundaryCollision3 useMibf gf dt objs plates index X v
    u ⬝ᵥ u ≤ v ⬝ᵥ v := by
  have h1 := collideObjects_energy hμ' hn v
  have h2 := (collidePlates_shrinks (inside := Plate.inside3) (V := 0)
    (fun q hq _ r => plateRel3_shrinks (hμ q hq) r)
    (fun q hq h => hV q hq ((inside3_iff _ _).mp h))
    (collideObjects (wallFriction useMibf gf index) (X + dt • v) objs v)).energy
  rw [sub_zero, sub_zero] at h2
  exact h2.trans h1

/-- **C30** Plates moving with a common velocity `V` never increase the speed relative to them
(2D). -/
theorem C30_relative2 {plates : List (Plate 2)} {X v V : Fin 2 → ℝ}
    (hμ : ∀ p ∈ plates, 0 ≤ frictionAt useMibf gf index p.friction)
    (hV : ∀ p ∈ plates, Behind2 p (X + dt • v) → p.vel = V) :
    let u := boundaryCollision2 useMibf gf dt [] plates index X v
    (u - V) ⬝ᵥ (u - V) ≤ (v - V) ⬝ᵥ (v - V) :=
  (collidePlates_shrinks (inside := Plate.inside2) (V := V)
    (fun q hq _ r => plateRel2_shrinks (hμ q hq) r)
    (fun q hq h => hV q hq ((inside2_iff _ _).mp h)) v).energy

/-- **C30** same in 3D. -/
theorem C30_relative3 {plates : List (Plate 3)} {X v V : Fin 3 → ℝ}
    (hμ : ∀ p ∈ plates, 0 ≤ frictionAt useMibf gf index p.friction)
    (hV : ∀ p ∈ plates, Behind3 p (X + dt • v) → p.vel = V) :
    let u := boundaryCollision3 useMibf gf dt [] plates index X v
    (u - V) ⬝ᵥ (u - V) ≤ (v - V) ⬝ᵥ (v - V) :=
  (collidePlates_shrinks (inside := Plate.inside3) (V := V)
    (fun q hq _ r => plateRel3_shrinks (hμ q hq) r)
    (fun q hq h => hV q hq ((inside3_iff _ _).mp h)) v).energy

/-! ### C31 -/

/-- **C31** (2D) A node keeps its velocity if every wall it is behind or inside is a separating one
(slip-free) from which the node moves away; in particular if it is behind none. -/
theorem C31_untouched2 {objs : List (GenObject 2)} {plates : List (Plate 2)} {X v : Fin 2 → ℝ}
    (ho : ∀ o ∈ objs, o.inside (X + dt • v) → o.bc = .slipFree ∧ 0 ≤ v ⬝ᵥ o.normal (X + dt • v))
    (hp : ∀ p ∈ plates, Behind2 p (X + dt • v) →
      p.bc = .slipFree ∧ 0 ≤ (v - p.vel) ⬝ᵥ normal2 p.type) :
    boundaryCollision2 useMibf gf dt objs plates index X v = v := by
  simp only [boundaryCollision2]
  have h1 : collideObjects (wallFriction useMibf gf index) (X + dt • v) objs v = v := by
    generalize X + dt • v = Y at ho
    clear hp
    induction objs with
    | nil => rfl
    | cons o L ih =>
      by_cases h : o.inside Y
      · rw [collideObjects_cons o L h, (ho o (by simp) h).1]
        simp only [objectRel, if_neg (not_lt.mpr (ho o (by simp) h).2)]
        exact ih fun q hq => ho q (by simp [hq])
      · rw [show o :: L = [o] ++ L from rfl, collideObjects_append,
          collideObjects_none (L := [o]) (fun q hq => by rw [List.mem_singleton.mp hq]; exact h)]
        exact ih fun q hq => ho q (by simp [hq])
  rw [h1]
  generalize X + dt • v = Y at hp
  clear ho h1
  induction plates with
  | nil => rfl
  | cons p L ih =>
    have ih' := ih fun q hq => hp q (by simp [hq])
    by_cases h : p.inside2 Y
    · obtain ⟨g1, g2⟩ := hp p (by simp) ((inside2_iff _ _).mp h)
      have hne := ((inside2_iff _ _).mp h).1
      rw [collidePlates_cons p L h, g1]
      have : plateRel2 p.type .slipFree (wallFriction useMibf gf index p.friction) (v - p.vel) =
          v - p.vel := by
        simp only [plateRel2]
        revert g2 hne
        cases p.type <;> simp [normal2, dotProduct] <;> intro g2 <;> intro g3 <;> exfalso <;> linarith
      rw [this, sub_add_cancel]; exact ih'
    · rw [show p :: L = [p] ++ L from rfl, collidePlates_append,
        collidePlates_none (L := [p]) (fun q hq => by rw [List.mem_singleton.mp hq]; exact h)]
      exact ih'

/-- **C31** (3D) -/
theorem C31_untouched3 {objs : List (GenObject 3)} {plates : List (Plate 3)} {X v : Fin 3 → ℝ}
    (ho : ∀ o ∈ objs, o.inside (X + dt • v) → o.bc = .slipFree ∧ 0 ≤ v ⬝ᵥ o.normal (X + dt • v))
    (hp : ∀ p ∈ plates, Behind3 p (X + dt • v) →
      p.bc = .slipFree ∧ 0 ≤ (v - p.vel) ⬝ᵥ normal3 p.type) :
    boundaryCollision3 useMibf gf dt objs plates index X v = v := by
  simp only [boundaryCollision3]
  have h1 : collideObjects (wallFriction useMibf gf index) (X + dt • v) objs v = v := by
    generalize X + dt • v = Y at ho
    clear hp
    induction objs with
    | nil => rfl
    | cons o L ih =>
      by_cases h : o.inside Y
      · rw [collideObjects_cons o L h, (ho o (by simp) h).1]
        simp only [objectRel, if_neg (not_lt.mpr (ho o (by simp) h).2)]
        exact ih fun q hq => ho q (by simp [hq])
      · rw [show o :: L = [o] ++ L from rfl, collideObjects_append,
          collideObjects_none (L := [o]) (fun q hq => by rw [List.mem_singleton.mp hq]; exact h)]
        exact ih fun q hq => ho q (by simp [hq])
  rw [h1]
  generalize X + dt • v = Y at hp
  clear ho h1
  induction plates with
  | nil => rfl
  | cons p L ih =>
    have ih' := ih fun q hq => hp q (by simp [hq])
    by_cases h : p.inside3 Y
    · obtain ⟨g1, g2⟩ := hp p (by simp) ((inside3_iff _ _).mp h)
      rw [collidePlates_cons p L h, g1]
      have : plateRel3 p.type .slipFree (wallFriction useMibf gf index p.friction) (v - p.vel) =
          v - p.vel := by
        simp only [plateRel3]
        revert g2
        cases p.type <;> simp [normal3, dotProduct, Fin.sum_univ_three] <;> intro g2 <;> intro g3 <;>
          exfalso <;> linarith
      rw [this, sub_add_cancel]; exact ih'
    · rw [show p :: L = [p] ++ L from rfl, collidePlates_append,
        collidePlates_none (L := [p]) (fun q hq => by rw [List.mem_singleton.mp hq]; exact h)]
      exact ih'

/-! ### concrete walls -/

namespace WallEx

/-- A plate at rest at coordinate 0. -/
noncomputable def plate2 (t : PlateType) (bc : BC) : Plate 2 :=
  ⟨0, t, bc, 1/2, -10^15, 10^15, 0, 0, 1, 0⟩

/-- A node just inside the corner moving into it. -/
noncomputable def X : Fin 2 → ℝ := ![1/10, 1/10]
/-- its velocity -/
noncomputable def v : Fin 2 → ℝ := ![-1, -2]

lemma behind_left (bc : BC) : Behind2 (plate2 .left bc) (X + (1 : ℝ) • v) := by
  rw [← inside2_iff]; norm_num [Plate.inside2, plate2, X, v]
lemma behind_bottom (bc : BC) : Behind2 (plate2 .bottom bc) (X + (1 : ℝ) • v) := by
  rw [← inside2_iff]; norm_num [Plate.inside2, plate2, X, v]
lemma not_behind_top (bc : BC) : ¬ Behind2 (plate2 .top bc) (X + (1 : ℝ) • v) := by
  rw [← inside2_iff]; norm_num [Plate.inside2, plate2, X, v]

/-- Corner of a rough and a separating plate. -/
example :
    let u := boundaryCollision2 false (fun _ => 0) 1 []
      [plate2 .left .slipStick, plate2 .bottom .slipFree] 7 X v
    0 ≤ u 1 ∧ u 0 = 0 := by
  have hμ : ∀ p ∈ [plate2 .left .slipStick, plate2 .bottom .slipFree],
      0 ≤ frictionAt false (fun _ => 0) 7 p.friction := by
    intro p hp
    simp only [List.mem_cons, List.not_mem_nil, or_false] at hp
    rcases hp with rfl | rfl <;> norm_num [frictionAt, plate2]
  have hV : ∀ p ∈ [plate2 .left .slipStick, plate2 .bottom .slipFree],
      Behind2 p (X + (1 : ℝ) • v) → p.vel = 0 := by
    intro p hp _
    simp only [List.mem_cons, List.not_mem_nil, or_false] at hp
    rcases hp with rfl | rfl <;> rfl
  have h1 := C28_plates2 (objs := []) hμ hV (p := plate2 .bottom .slipFree) (by simp) (behind_bottom _)
  have h2 := C28_plates2 (objs := []) hμ hV (p := plate2 .left .slipStick) (by simp) (behind_left _)
  have h3 := C30_energy2 (objs := []) hμ (by simp) (by simp) hV
  simp only [sub_zero] at h1 h2
  refine ⟨?_, ?_⟩
  · simpa [plate2, normal2, dotProduct] using h1.1
  · simpa [plate2, normal2, dotProduct] using h2.2 (by simp [plate2])

/-- A no-slip plate listed last wins. -/
example : boundaryCollision2 false (fun _ => 0) 1 []
    ([plate2 .left .slipStick] ++ plate2 .bottom .noSlip :: [plate2 .top .noSlip]) 7 X v = 0 :=
  C27_plate2 rfl (behind_bottom _) (by
    intro q hq; rw [List.mem_singleton.mp hq]; exact not_behind_top _)

/-- One rough plate: `(-1, -2)` becomes `(0, 0)`: it sticks since `1 ≤ 1/2 * 2`. -/
example : boundaryCollision2 false (fun _ => 0) 1 []
    ([] ++ plate2 .bottom .slipStick :: [plate2 .top .noSlip]) 7 X v = 0 := by
  have h := C29_plate2 (useMibf := false) (gf := fun _ => 0) (index := 7) (objs := [])
    (pre := []) (post := [plate2 .top .noSlip]) (p := plate2 .bottom .slipStick) (dt := 1)
    (X := X) (v := v) (by norm_num [frictionAt, plate2]) (behind_bottom _) (by
      intro q hq
      have : q = plate2 .top .noSlip := by simpa using hq
      rw [this]; exact not_behind_top _) (by simp)
  have h0 : (plate2 .bottom .slipStick).vel = 0 := rfl
  rw [h0, sub_zero, sub_zero] at h
  rw [h]
  have hd : v ⬝ᵥ (![0, 1] : Fin 2 → ℝ) = -2 := by simp [v, dotProduct]
  have ht : v - (-2 : ℝ) • (![0, 1] : Fin 2 → ℝ) = ![-1, 0] := by
    funext a; fin_cases a <;> simp [v]
  simp only [wallLaw, plate2, normal2, hd, ht, coulomb, (vnorm_single2 _).1, frictionAt]
  norm_num

/-- Terrain: the parabola, hit from above at `x = 0`. -/
lemma in_curve : (objectCurve (d := 0) .slipFree (1/10)).inside (X + (1 : ℝ) • v) := by
  norm_num [objectCurve, X, v]

example := C29_object2 (useMibf := false) (gf := fun _ => 0) (index := 7) (pre := []) (post := [])
  (o := objectCurve .slipFree (1/10)) (plates := [plate2 .top .noSlip]) (dt := 1) (X := X) (v := v)
  (by norm_num [frictionAt, objectCurve]) in_curve (by simp) (by
    intro q hq; rw [List.mem_singleton.mp hq]; exact not_behind_top _)

example := C27_object2 (useMibf := false) (gf := fun _ => 0) (index := 7) (pre := []) (post := [])
  (o := objectCurve .noSlip (1/10)) (plates := [plate2 .top .noSlip]) (dt := 1) (X := X) (v := v)
  rfl (by norm_num [objectCurve, X, v]) (by simp) (by
    intro q hq; rw [List.mem_singleton.mp hq]; exact not_behind_top _)

/-- Leaving a separating plate. -/
example : boundaryCollision2 true (fun _ => 1) (1/100) [] [plate2 .left .slipFree] 3 ![-1, 1] ![5, 1] =
    ![5, 1] := C31_untouched2 (by simp) (by
  intro p hp _
  rw [List.mem_singleton.mp hp]
  exact ⟨rfl, by simp [plate2, normal2, dotProduct]⟩)

/-- 3D: a moving front plate and a floor. -/
noncomputable def plate3 (t : PlateType) (bc : BC) (V : Fin 3 → ℝ) : Plate 3 :=
  ⟨0, t, bc, 1/2, -10^15, 10^15, V, V, 1, 0⟩

lemma behind_front (bc : BC) (V : Fin 3 → ℝ) :
    Behind3 (plate3 .front bc V) (![1, 1, -1] + (1 : ℝ) • ![3, 4, 2]) := by
  rw [← inside3_iff]
  show (0 : ℝ) - ((-1 : ℝ) + 1 * 2) ≤ 0
  norm_num

example := C28_plates3 (useMibf := false) (gf := fun _ => 0) (index := 7) (objs := [])
  (plates := [plate3 .front .slipStick ![1, 0, 0], plate3 .bottom .slipFree 0]) (dt := 1)
  (X := ![1, 1, -1]) (v := ![3, 4, 2]) (V := ![1, 0, 0]) (by
    intro p hp
    simp only [List.mem_cons, List.not_mem_nil, or_false] at hp
    rcases hp with rfl | rfl <;> norm_num [frictionAt, plate3]) (by
    intro p hp hb
    simp only [List.mem_cons, List.not_mem_nil, or_false] at hp
    rcases hp with rfl | rfl
    · rfl
    · rw [← inside3_iff] at hb
      norm_num [Plate.inside3, plate3] at hb)
  (p := plate3 .front .slipStick ![1, 0, 0]) (by simp) (behind_front _ _)

example := C27_plate3 (useMibf := false) (gf := fun _ => 0) (index := 7) (objs := []) (pre := [])
  (post := []) (dt := 1) (X := ![1, 1, -1]) (v := ![3, 4, 2])
  (p := plate3 .front .noSlip ![1, 0, 0]) rfl (behind_front _ _) (by simp)

example := C29_plate3_partial (useMibf := false) (gf := fun _ => 0) (index := 7) (objs := []) (pre := [])
  (post := []) (dt := 1) (X := ![1, 1, -1]) (v := ![3, 4, 2])
  (p := plate3 .front .slipStick ![1, 0, 0]) (by norm_num [frictionAt, plate3]) (behind_front _ _) (by simp) (by simp)

example := C30_relative3 (useMibf := false) (gf := fun _ => 0) (index := 7)
  (plates := [plate3 .front .slipStick ![1, 0, 0]]) (dt := 1)
  (X := ![1, 1, -1]) (v := ![3, 4, 2]) (V := ![1, 0, 0]) (by
    intro p hp; rw [List.mem_singleton.mp hp]; norm_num [frictionAt, plate3]) (by
    intro p hp _; rw [List.mem_singleton.mp hp]; rfl)

end WallEx

end Verif.Props
