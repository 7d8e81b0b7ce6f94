import Verif.Props.Textbook
import Verif.Props.FreeFall
import Verif.Props.GridWalls
import Verif.Props.EnergyRun
import Verif.Props.Bookkeeping
import Verif.Props.Strength
import Verif.Props.Rotation

set_option linter.unusedSectionVars false
set_option linter.unusedSimpArgs false
set_option linter.unusedVariables false

/-!
# C117: a body in equilibrium stays at rest

If the particles are at rest, their stresses are admissible, and at every node the stresses balance gravity or the node
is carried by a resting wall (stuck to it, pulled straight into it, or inside its friction cone), then nothing moves: all
files of the run show the initial particles.
-/

namespace Verif.Props
open Verif Matrix
noncomputable section

variable {d : ℕ}

/-! ### Specification -/

open Classical in
/-- The acceleration that gravity and the stresses of the particles give to the node at `X`. -/
def pullAt (deg : Deg) (dx m vol : ℝ) (g : Fin d → ℝ) (ps : List (Particle d ℝ)) (X : Fin d → ℝ) : Fin d → ℝ :=
  g - (vol / massAt deg dx m ps X) •
    ((ps.filter fun p => 1 / 10 ^ 25 < shape deg dx X p.x).map fun p => p.tau *ᵥ shapeGrad deg dx X p.x).sum

/-- `Y` is at or behind the surface of the plate `q`, whose normal is along axis `b`. -/
def Behind (q : Plate (d + 2)) (b : Fin (d + 2)) (Y : Fin (d + 2) → ℝ) : Prop :=
  normalAxis q.type = b ∧ Covers q Y ∧ openSide q.type * Y b ≤ openSide q.type * q.pos

/-- The sum of the squares of the components along the plate. -/
def alongSq (b : Fin d) (a : Fin d → ℝ) : ℝ := ∑ c ∈ Finset.univ.erase b, a c ^ 2

/-- A pull `a` which the plate `q` resists whatever other plates do: not away from the plate, and either the plate is
no-slip or the pull is perpendicular to it. -/
def HoldsFirm (q : Plate d) (b : Fin d) (a : Fin d → ℝ) : Prop :=
  openSide q.type * a b ≤ 0 ∧ (q.bc = .noSlip ∨ alongSq b a = 0)

/-- A pull inside the friction cone of the plate. -/
def InCone (q : Plate d) (b : Fin d) (a : Fin d → ℝ) : Prop :=
  openSide q.type * a b ≤ 0 ∧ (q.bc = .noSlip ∨ alongSq b a = 0 ∨ alongSq b a < (q.friction * a b) ^ 2)

/-- The plates keep a node at `X` with the pull `a` in place, for all time steps up to `D` (the code looks where the node
would be after the step): a plate holds it firmly, or it is in the friction cones of all plates it is behind of. -/
def Carried (D : ℝ) (plates : List (Plate (d + 2))) (X a : Fin (d + 2) → ℝ) : Prop :=
  ∀ dt, 0 < dt → dt ≤ D →
    (∃ q ∈ plates, ∃ b, Behind q b (X + (dt * dt) • a) ∧ HoldsFirm q b a) ∨
    (∃ q ∈ plates, ∃ b, Behind q b (X + (dt * dt) • a)) ∧
      ∀ q ∈ plates, ∀ b, Behind q b (X + (dt * dt) • a) → InCone q b a

/-- The stress is below the yield stress (elastic, von Mises, Drucker-Prager, Cam-Clay). -/
def BelowYield (m : Material) (d : ℕ) (tau : Matrix (Fin d) (Fin d) ℝ) (epv : ℝ) : Prop :=
  match m.plastic with
  | .noPlasticity => True
  | .vm => savedQ m.qPrefac tau ≤ m.qMax
  | .dp => 1e-10 ≤ m.M * savedP tau + m.qCohesion ∧ savedQ m.qPrefac tau ≤ m.M * savedP tau + m.qCohesion
  | .mcc => ¬ OutsideEllipse m.M (hardeningPc m d epv) m.beta (savedP tau) (savedQ m.qPrefac tau)
  | _ => False

/-- Sensible parameters for these models. -/
def Sensible (m : Material) (d : ℕ) : Prop :=
  MatOk m d ∧ (m.plastic = .vm → 0 ≤ m.qMax) ∧ (m.plastic = .dp → 0 < m.M ∧ 0 ≤ m.qCohesion) ∧
    (m.plastic = .mcc → CamOk m ∧ 0 ≤ m.M)

/-- A particle at rest whose stress is the Hencky stress of its deformation and below the yield stress. The
singular values of the deformation must be above the cut-off `1e-4` of the code. -/
def Dormant (m : Material) (p : Particle d ℝ) : Prop :=
  p.v = 0 ∧ p.Bmat = 0 ∧ IsHenckyStress m.lam m.mu p.F p.tau ∧ (∀ s, IsSvd p.F s → ∀ i, 1e-4 ≤ s.sig i) ∧
    BelowYield m d p.tau p.epsPlVol

/-- Same particle apart from records of the last step: position, velocity, affine matrix, deformation, stress and the
plastic strains are the same. -/
def Unchanged (p p' : Particle d ℝ) : Prop :=
  p'.x = p.x ∧ p'.v = p.v ∧ p'.Bmat = p.Bmat ∧ p'.F = p.F ∧ p'.tau = p.tau ∧ p'.epsPlDev = p.epsPlDev ∧
    p'.epsPlVol = p.epsPlVol ∧ p'.epsPlVolPradhana = p.epsPlVolPradhana

lemma Unchanged.refl (p : Particle d ℝ) : Unchanged p p := ⟨rfl, rfl, rfl, rfl, rfl, rfl, rfl, rfl⟩

lemma Unchanged.trans {p q r : Particle d ℝ} (h : Unchanged p q) (h' : Unchanged q r) : Unchanged p r := by
  obtain ⟨a1, a2, a3, a4, a5, a6, a7, a8⟩ := h
  obtain ⟨b1, b2, b3, b4, b5, b6, b7, b8⟩ := h'
  exact ⟨b1.trans a1, b2.trans a2, b3.trans a3, b4.trans a4, b5.trans a5, b6.trans a6, b7.trans a7, b8.trans a8⟩

lemma Unchanged.dormant {m : Material} {p q : Particle d ℝ} (h : Unchanged p q) (hp : Dormant m p) : Dormant m q := by
  obtain ⟨a1, a2, a3, a4, a5, a6, a7, a8⟩ := h
  obtain ⟨b1, b2, b3, b4, b5⟩ := hp
  refine ⟨a2.trans b1, a3.trans b2, ?_, ?_, ?_⟩
  · rw [a4, a5]; exact b3
  · rw [a4]; exact b4
  · rw [a5, a7]; exact b5

/-! ### Walls -/

/-- What is needed of the plates; holds in 2D and 3D. -/
structure CarryOps (ops : PlateOps (d + 2)) : Prop where
  reaches : ∀ (p : Plate (d + 2)) (b : Fin (d + 2)) X, normalAxis p.type = b →
    (ops.inside p X ↔ Covers p X ∧ openSide p.type * X b ≤ openSide p.type * p.pos)
  nowhere : ∀ (p : Plate (d + 2)) X, (∀ b : Fin (d + 2), normalAxis p.type ≠ b) → ¬ ops.inside p X
  stops : ∀ type bc μ r (b : Fin (d + 2)), normalAxis type = b → 0 ≤ μ → openSide type * r b ≤ 0 →
    (bc = .noSlip ∨ alongSq b r = 0 ∨ alongSq b r < (μ * r b) ^ 2) → ops.rel type bc μ r = 0

lemma slide2_stops {μ t n : ℝ} (hμ : 0 ≤ μ) (h : t ^ 2 = 0 ∨ t ^ 2 < (μ * n) ^ 2) : slide2 μ t n = 0 := by
  unfold slide2
  rcases h with h | h
  · have ht : t = 0 := by simpa using h
    subst ht
    by_cases h0 : μ = 0
    · simp [h0]
    · rw [if_neg h0]
      split_ifs with h1 h2
      · rfl
      · simp at h2
      · rw [abs_zero, not_lt] at h1
        have : 0 ≤ μ * |n| := mul_nonneg hμ (abs_nonneg _)
        linarith
  · have : |t| < μ * |n| := by
      have := sq_lt_sq.mp h
      rwa [abs_mul, abs_of_nonneg hμ] at this
    have h0 : μ ≠ 0 := by
      rintro rfl
      rw [zero_mul] at this
      exact absurd (abs_nonneg t) (not_le.mpr this)
    rw [if_neg h0, if_pos this]

lemma slide3_stops {μ t₁ t₂ n : ℝ} (hμ : 0 ≤ μ) (h : t₁ ^ 2 + t₂ ^ 2 = 0 ∨ t₁ ^ 2 + t₂ ^ 2 < (μ * n) ^ 2) :
    slide3 μ t₁ t₂ n = (0, 0) := by
  have e : t₁ * t₁ + t₂ * t₂ = t₁ ^ 2 + t₂ ^ 2 := by ring
  have hle : t₁ ^ 2 + t₂ ^ 2 ≤ (μ * n) ^ 2 := by
    rcases h with h | h
    · rw [h]; positivity
    · exact h.le
  have : Real.sqrt (t₁ * t₁ + t₂ * t₂) ≤ μ * |n| := by
    rw [e]
    refine Real.sqrt_le_iff.mpr ⟨mul_nonneg hμ (abs_nonneg _), ?_⟩
    rwa [mul_pow, sq_abs, ← mul_pow]
  unfold slide3
  by_cases h0 : μ = 0
  · subst h0
    have hz : t₁ ^ 2 + t₂ ^ 2 = 0 := by
      rcases h with h | h
      · exact h
      · nlinarith [sq_nonneg t₁, sq_nonneg t₂]
    have h1 : t₁ = 0 := by nlinarith [sq_nonneg t₁, sq_nonneg t₂]
    have h2 : t₂ = 0 := by nlinarith [sq_nonneg t₁, sq_nonneg t₂]
    simp [h1, h2]
  · simp only
    rw [if_neg h0, if_pos this]

lemma erase2 (b : Fin 2) (r : Fin 2 → ℝ) : alongSq b r = if b = 0 then r 1 ^ 2 else r 0 ^ 2 := by
  fin_cases b
  · simp [alongSq, show (Finset.univ.erase (0 : Fin 2)) = {1} from by decide]
  · simp [alongSq, show (Finset.univ.erase (1 : Fin 2)) = {0} from by decide]

lemma erase3 (b : Fin 3) (r : Fin 3 → ℝ) :
    alongSq b r = if b = 0 then r 1 ^ 2 + r 2 ^ 2 else if b = 1 then r 0 ^ 2 + r 2 ^ 2 else r 0 ^ 2 + r 1 ^ 2 := by
  fin_cases b
  · simp [alongSq, show (Finset.univ.erase (0 : Fin 3)) = {1, 2} from by decide]
  · simp [alongSq, show (Finset.univ.erase (1 : Fin 3)) = {0, 2} from by decide]
  · simp [alongSq, show (Finset.univ.erase (2 : Fin 3)) = {0, 1} from by decide]

lemma carry2 : CarryOps (d := 0) plateOps2 where
  reaches := by
    rintro ⟨pos, type, bc, fr, lo, up, vel, vo, vm, lf⟩ b X h
    simp only [plateOps2, Plate.inside2]
    fin_cases b <;> cases type <;> simp_all [Covers, normalAxis, openSide] <;> tauto
  nowhere := by
    rintro ⟨pos, type, bc, fr, lo, up, vel, vo, vm, lf⟩ X h
    cases type
    · exact absurd rfl (h 1)
    · exact absurd rfl (h 1)
    · exact absurd rfl (h 0)
    · exact absurd rfl (h 0)
    · simp [plateOps2, Plate.inside2]
    · simp [plateOps2, Plate.inside2]
  stops := by
    intro type bc μ r b hb hμ hin h
    have z : (![0, 0] : Fin 2 → ℝ) = 0 := by ext i; fin_cases i <;> rfl
    show plateRel2 type bc μ r = 0
    have hb' : b = 0 ∧ (type = .left ∨ type = .right) ∨ b = 1 ∧ (type = .bottom ∨ type = .top) := by
      fin_cases b <;> cases type <;> simp_all [normalAxis]
    have hs : bc = .noSlip ∨ slide2 μ (r (if b = 0 then 1 else 0)) (r b) = 0 := by
      refine h.imp_right fun h => slide2_stops hμ ?_
      rw [erase2] at h
      rcases hb' with ⟨rfl, -⟩ | ⟨rfl, -⟩ <;> simpa using h
    have ha : r b = 0 → bc = .noSlip ∨ r = 0 := by
      intro h0
      refine h.imp_right fun h => ?_
      rw [erase2, h0] at h
      rcases hb' with ⟨rfl, -⟩ | ⟨rfl, -⟩ <;> ext i <;> fin_cases i <;> simp_all
      all_goals exact h.resolve_right (not_lt.mpr (sq_nonneg _))
    cases bc
    · exact z
    · simp only [reduceCtorEq, false_or] at hs ha
      rcases hb' with ⟨rfl, rfl | rfl⟩ | ⟨rfl, rfl | rfl⟩ <;> simp at hs <;> simp [plateRel2, hs, z]
    · simp only [reduceCtorEq, false_or] at hs ha
      rcases hb' with ⟨rfl, rfl | rfl⟩ | ⟨rfl, rfl | rfl⟩ <;> simp [openSide] at hs hin <;>
        simp only [plateRel2, reduceCtorEq, false_and, true_and, false_or, or_false] <;>
        first
          | (split_ifs with h1
             · simp [hs, z]
             · exact ha (le_antisymm hin (not_lt.mp h1)))
          | (split_ifs with h1
             · simp [hs, z]
             · exact ha (le_antisymm (not_lt.mp h1) hin))
          | (rw [if_neg not_false]; split_ifs with h1
             · simp [hs, z]
             · first
                | exact ha (le_antisymm hin (not_lt.mp h1))
                | exact ha (le_antisymm (not_lt.mp h1) hin))

lemma carry3 : CarryOps (d := 1) plateOps3 where
  reaches := by
    rintro ⟨pos, type, bc, fr, lo, up, vel, vo, vm, lf⟩ b X h
    simp only [plateOps3, Plate.inside3]
    fin_cases b <;> cases type <;> simp_all [Covers, normalAxis, openSide] <;> tauto
  nowhere := by
    rintro ⟨pos, type, bc, fr, lo, up, vel, vo, vm, lf⟩ X h
    cases type
    · exact absurd rfl (h 1)
    · exact absurd rfl (h 1)
    · exact absurd rfl (h 0)
    · exact absurd rfl (h 0)
    · exact absurd rfl (h 2)
    · exact absurd rfl (h 2)
  stops := by
    intro type bc μ r b hb hμ hin h
    have z : (![0, 0, 0] : Fin 3 → ℝ) = 0 := by ext i; fin_cases i <;> rfl
    show plateRel3 type bc μ r = 0
    have hb' : b = 0 ∧ (type = .left ∨ type = .right) ∨ b = 1 ∧ (type = .bottom ∨ type = .top) ∨
        b = 2 ∧ (type = .back ∨ type = .front) := by
      fin_cases b <;> cases type <;> simp_all [normalAxis]
    have hs : bc = .noSlip ∨ slide3 μ (r (if b = 0 then 1 else 0)) (r (if b = 2 then 1 else 2)) (r b) = (0, 0) := by
      refine h.imp_right fun h => slide3_stops hμ ?_
      rw [erase3] at h
      rcases hb' with ⟨rfl, -⟩ | ⟨rfl, -⟩ | ⟨rfl, -⟩ <;> simpa using h
    have ha : r b = 0 → bc = .noSlip ∨ r = 0 := by
      intro h0
      refine h.imp_right fun h => ?_
      rw [erase3, h0] at h
      have key : ∀ x y : ℝ, x ^ 2 + y ^ 2 = 0 ∨ x ^ 2 + y ^ 2 < (μ * 0) ^ 2 → x = 0 ∧ y = 0 := by
        intro x y h
        have : x ^ 2 + y ^ 2 ≤ 0 := by
          rcases h with h | h
          · exact h.le
          · simpa using h.le
        constructor <;> nlinarith [sq_nonneg x, sq_nonneg y]
      rcases hb' with ⟨rfl, -⟩ | ⟨rfl, -⟩ | ⟨rfl, -⟩
      · obtain ⟨h1, h2⟩ := key _ _ (by simpa using h)
        ext i; fin_cases i <;> assumption
      · obtain ⟨h1, h2⟩ := key _ _ (by simpa using h)
        ext i; fin_cases i <;> assumption
      · obtain ⟨h1, h2⟩ := key _ _ (by simpa using h)
        ext i; fin_cases i <;> assumption
    cases bc
    · exact z
    · simp only [reduceCtorEq, false_or] at hs ha
      rcases hb' with ⟨rfl, rfl | rfl⟩ | ⟨rfl, rfl | rfl⟩ | ⟨rfl, rfl | rfl⟩ <;> simp at hs <;> simp [plateRel3, hs, z]
    · simp only [reduceCtorEq, false_or] at hs ha
      have hr : r b ≠ 0 → (type = .left ∨ type = .bottom ∨ type = .back) ∧ r b < 0 ∨
          (type = .right ∨ type = .top ∨ type = .front) ∧ 0 < r b := by
        intro h0
        rcases hb' with ⟨rfl, rfl | rfl⟩ | ⟨rfl, rfl | rfl⟩ | ⟨rfl, rfl | rfl⟩ <;> simp [openSide] at hin ⊢ <;>
          first
            | exact lt_of_le_of_ne hin h0
            | exact lt_of_le_of_ne hin (Ne.symm h0)
      by_cases h0 : r b = 0
      · have hr0 := ha h0
        subst hr0
        have hz : ∀ n, slide3 μ 0 0 n = (0, 0) := fun n => slide3_stops hμ (.inl (by simp))
        simp [plateRel3]
      · have := hr h0
        rcases hb' with ⟨rfl, rfl | rfl⟩ | ⟨rfl, rfl | rfl⟩ | ⟨rfl, rfl | rfl⟩ <;> simp at hs this <;>
          simp [plateRel3, hs, z, this]

variable {ops : PlateOps (d + 2)}

lemma fold_zero (hops : BrakeOps ops) {plates : List (Plate (d + 2))} (hpl : ∀ p ∈ plates, PlateRests p)
    (Y : Fin (d + 2) → ℝ) : collidePlates ops.inside ops.rel (fun x => x) Y plates 0 = 0 := by
  unfold collidePlates
  induction plates with
  | nil => rfl
  | cons p l ih =>
    rw [List.foldl_cons]
    have hp := hpl p (by simp)
    have : ops.rel p.type p.bc p.friction 0 = 0 := by
      ext c
      obtain ⟨x, -, -, e⟩ := hops.shrinks p.type p.bc p.friction 0 hp.2.2 c
      rw [e]; simp
    rw [hp.1, sub_zero, this, add_zero, ite_self]
    exact ih fun q hq => hpl q (List.mem_cons_of_mem _ hq)

lemma alongSq_mono {b : Fin d} {a v : Fin d → ℝ} (h : alongSq b a = 0) (hv : Shrinks a v) : alongSq b v = 0 := by
  unfold alongSq at h ⊢
  rw [Finset.sum_eq_zero_iff_of_nonneg fun c _ => sq_nonneg _] at h
  refine Finset.sum_eq_zero fun c hc => ?_
  obtain ⟨x, -, -, e⟩ := hv c
  have := h c hc
  rw [e, show a c = 0 by simpa using this]
  simp

/-- The plates stop a carried node. -/
lemma carried_stops (hc : CarryOps ops) (hops : BrakeOps ops) {plates : List (Plate (d + 2))}
    (hpl : ∀ p ∈ plates, PlateRests p) {D dt : ℝ} (hdt : 0 < dt) (hD : dt ≤ D) {X a : Fin (d + 2) → ℝ}
    (h : Carried D plates X a) (gf : ℕ → ℝ) (l : ℕ) :
    boundaryCollision ops false gf dt [] plates l X (dt • a) = 0 := by
  have e : (fun own => wallFriction false gf l own) = fun x => x := by funext x; simp [wallFriction]
  show collidePlates ops.inside ops.rel (fun own => wallFriction false gf l own) (X + dt • dt • a) plates (dt • a) = 0
  rw [e, smul_smul]
  have h := h dt hdt hD
  set Y := X + (dt * dt) • a with hY
  have hin : ∀ q b, Behind q b Y → ops.inside q Y := fun q b hq => (hc.reaches q b Y hq.1).mpr hq.2
  have hout : ∀ q, ops.inside q Y → ∃ b, Behind q b Y := by
    intro q hq
    by_cases hb : ∃ b : Fin (d + 2), normalAxis q.type = b
    · obtain ⟨b, hb⟩ := hb
      exact ⟨b, hb, (hc.reaches q b Y hb).mp hq⟩
    · exact absurd hq (hc.nowhere q Y fun b hb' => hb ⟨b, hb'⟩)
  have hscale : ∀ b, alongSq b (dt • a) = dt ^ 2 * alongSq b a := by
    intro b
    unfold alongSq
    rw [Finset.mul_sum]
    exact Finset.sum_congr rfl fun c _ => by simp [mul_pow]
  rcases h with ⟨q, hq, b, hq1, hq2, hq3⟩ | ⟨⟨q, hq, b, hq1⟩, hall⟩
  · have key : ∀ L : List (Plate (d + 2)), q ∈ L → (∀ p ∈ L, PlateRests p) → ∀ v, Shrinks (dt • a) v →
        collidePlates ops.inside ops.rel (fun x => x) Y L v = 0 := by
      intro L
      induction L with
      | nil => intro h; simp at h
      | cons p L ih =>
        intro hmem hL v hv
        have hp := hL p (by simp)
        have hL' : ∀ p ∈ L, PlateRests p := fun q hq => hL q (List.mem_cons_of_mem _ hq)
        show collidePlates ops.inside ops.rel (fun x => x) Y L _ = 0
        beta_reduce
        by_cases hpq : q = p
        · subst hpq
          rw [if_pos (hin q b hq1), hp.1, sub_zero, add_zero, hc.stops q.type q.bc q.friction v b hq1.1 hp.2.2 ?_ ?_]
          · exact fold_zero hops hL' Y
          · obtain ⟨x, x0, -, e⟩ := hv b
            rw [e, Pi.smul_apply, smul_eq_mul]
            have : openSide q.type * (x * (dt * a b)) = x * dt * (openSide q.type * a b) := by ring
            rw [this]
            exact mul_nonpos_of_nonneg_of_nonpos (mul_nonneg x0 hdt.le) hq2
          · exact hq3.imp_right fun h => .inl (alongSq_mono (by rw [hscale, h, mul_zero]) hv)
        · have hqL : q ∈ L := (List.mem_cons.mp hmem).resolve_left hpq
          refine ih hqL hL' _ ?_
          split_ifs with hi
          · intro c
            obtain ⟨x, x0, x1, e⟩ := hv c
            obtain ⟨y, y0, y1, e'⟩ := hops.shrinks p.type p.bc p.friction v hp.2.2 c
            rw [hp.1, sub_zero, add_zero]
            exact ⟨y * x, mul_nonneg y0 x0, mul_le_one₀ y1 x0 x1, by rw [e', e, mul_assoc]⟩
          · exact hv
    exact key plates hq hpl _ fun c => ⟨1, zero_le_one, le_rfl, by simp⟩
  · have key : ∀ L : List (Plate (d + 2)), (∃ q ∈ L, ops.inside q Y) → (∀ p ∈ L, PlateRests p) →
        (∀ p ∈ L, p ∈ plates) → collidePlates ops.inside ops.rel (fun x => x) Y L (dt • a) = 0 := by
      intro L
      induction L with
      | nil => simp
      | cons p L ih =>
        rintro ⟨q, hq, hqi⟩ hL hsub
        have hp := hL p (by simp)
        have hL' : ∀ p ∈ L, PlateRests p := fun q hq => hL q (List.mem_cons_of_mem _ hq)
        show collidePlates ops.inside ops.rel (fun x => x) Y L _ = 0
        beta_reduce
        by_cases hi : ops.inside p Y
        · obtain ⟨b, hb⟩ := hout p hi
          obtain ⟨h1, h2⟩ := hall p (hsub p (by simp)) b hb
          rw [if_pos hi, hp.1, sub_zero, add_zero, hc.stops p.type p.bc p.friction _ b hb.1 hp.2.2 ?_ ?_]
          · exact fold_zero hops hL' Y
          · rw [Pi.smul_apply, smul_eq_mul, mul_left_comm]
            exact mul_nonpos_of_nonneg_of_nonpos hdt.le h1
          · refine h2.imp_right fun h => h.imp (fun h => by rw [hscale, h, mul_zero]) fun h => ?_
            rw [hscale, Pi.smul_apply, smul_eq_mul, mul_left_comm, mul_pow]
            exact mul_lt_mul_of_pos_left h (by positivity)
        · rw [if_neg hi]
          refine ih ⟨q, (List.mem_cons.mp hq).resolve_left ?_, hqi⟩ hL' fun p hp => hsub p (List.mem_cons_of_mem _ hp)
          rintro rfl
          exact hi hqi
    exact key plates ⟨q, hq, hin q b hq1⟩ hpl fun p hp => hp

/-! ### The constitutive law -/

lemma dormant_law {cabs} {svd : Matrix (Fin d) (Fin d) ℝ → Svd d} {m : Material} (ok : Sensible m d) (hsvd : ∀ F, IsSvd F (svd F))
    {p q : Particle d ℝ} (hp : Dormant m p) (hF : q.F = p.F) (he : q.epsPlVol = p.epsPlVol) {dt : ℝ} {out : PState d}
    (h : plasticity cabs svd m dt q false = some out) :
    out.exit = false ∧ out.q = { q with tau := p.tau, muI := out.q.muI, viscosity := out.q.viscosity } := by
  obtain ⟨-, -, h3, h4, h5⟩ := hp
  rw [← hF] at h3 h4
  have hs := hsvd q.F
  have hb := h4 _ hs
  have ht : elasticTau m (svd q.F) = p.tau := by
    rw [h3.2 _ hs, (trial_stress ok.1 hs hb).2 _ hs]
  unfold BelowYield at h5
  rw [← ht, ← he] at h5
  cases hm : m.plastic <;> simp only [hm] at h5
  case noPlasticity =>
    obtain ⟨o, ho, h1, h2, -, h6, -⟩ := C42_elastic (cabs := cabs) ok.1.hel hm dt q false hs hb
    rw [h] at ho
    obtain rfl := Option.some.inj ho
    refine ⟨h2, ?_⟩
    rw [← ht, ← h6]
    conv_lhs => rw [h1]
    conv_rhs => rw [h1]
  case vm =>
    obtain ⟨o, ho, -, -, -, h1, -, -, -, -, -, h2⟩ := C34_vonMises (cabs := cabs) ok.1 hm (ok.2.1 hm) dt q false hs
    rw [h] at ho
    obtain rfl := Option.some.inj ho
    have h1 := h1 h5
    refine ⟨h2, ?_⟩
    rw [← ht]
    conv_lhs => rw [h1]
    conv_rhs => rw [h1]
  case dp =>
    obtain ⟨o, ho, -, -, -, -, h1, h2⟩ := C35_druckerPrager (cabs := cabs) ok.1 hm (ok.2.2.1 hm).1 (ok.2.2.1 hm).2 dt q false hs
    rw [h] at ho
    obtain rfl := Option.some.inj ho
    have h1 := h1 h5.1 h5.2
    refine ⟨by tauto, ?_⟩
    rw [← ht]
    conv_lhs => rw [h1]
    conv_rhs => rw [h1]
  case mcc =>
    rcases C40_camClay ok.1 (ok.2.2.2 hm).1 hm (ok.2.2.2 hm).2 dt q false hs h with ⟨-, h1, h2, -⟩ | ⟨qy, ⟨h1, -⟩, -⟩
    · exact ⟨h2, by rw [← ht]; exact h1⟩
    · exact absurd h1 h5

/-! ### The method -/

section scheme
variable {S : Mpm.Scheme d} {ps : List (Particle d ℝ)}

lemma before_rest (h : ∀ p ∈ ps, p.v = 0 ∧ p.Bmat = 0) (X : Fin d → ℝ) : S.before ps X = 0 := by
  have : S.nodeMomentum ps X = 0 := by
    refine List.sum_eq_zero fun y hy => ?_
    obtain ⟨p, hp, rfl⟩ := List.mem_map.mp hy
    obtain ⟨h1, h2⟩ := h p (List.mem_of_mem_filter hp)
    rw [Mpm.Scheme.affine, h1, h2]
    split_ifs <;> simp
  unfold Mpm.Scheme.before
  rw [this]
  split_ifs <;> simp

lemma overNodes_zero {M : Type*} [AddCommMonoid M] {f : (Fin d → ℝ) → M} (h : ∀ k, f (S.node k) = 0) :
    S.overNodes f = 0 := by
  unfold Mpm.Scheme.overNodes
  simp [h]

section
variable (h : ∀ p ∈ ps, p.v = 0 ∧ p.Bmat = 0) (ha : ∀ k, S.after ps (S.node k) = 0)
include h ha

lemma rest_interp (x : Fin d → ℝ) :
    S.interp (S.after ps) x = 0 ∧ S.interp (fun X => S.after ps X - S.before ps X) x = 0 :=
  ⟨overNodes_zero fun k => by rw [ha]; simp, overNodes_zero fun k => by beta_reduce; rw [ha, before_rest h]; simp⟩

lemma rest_velocity {p : Particle d ℝ} (hp : p ∈ ps) : S.newVelocity ps p = 0 ∧ S.newAffine ps p = 0 := by
  constructor
  · unfold Mpm.Scheme.newVelocity
    simp only [(rest_interp h ha p.x).1, (rest_interp h ha p.x).2, (h p hp).1]
    split_ifs <;> simp
  · unfold Mpm.Scheme.newAffine
    split_ifs
    · exact overNodes_zero fun k => by rw [ha]; simp
    · rfl

lemma rest_deforming (k : Fin d → ℤ) : S.deforming ps (S.node k) = 0 := by
  unfold Mpm.Scheme.deforming
  split_ifs
  · refine before_rest (fun q hq => ?_) _
    obtain ⟨p, hp, rfl⟩ := List.mem_map.mp hq
    exact rest_velocity h ha hp
  · exact ha k

/-- If the nodes stay at rest, the particle handed to the constitutive law has its old deformation, and it stays where it is. -/
lemma rest_particle {p : Particle d ℝ}
    (hp : p ∈ ps) (hplace : S.place = id) {r : Particle d ℝ × Bool} (hr : S.particle ps p = some r) :
    ∃ q o, q.F = p.F ∧ q.epsPlVol = p.epsPlVol ∧ q.epsPlDev = p.epsPlDev ∧ q.epsPlVolPradhana = p.epsPlVolPradhana ∧
      q.Bmat = 0 ∧ S.law q = some o ∧ r = ({ o.1 with x := p.x, v := 0 }, o.2) := by
  have hg : S.grad (S.deforming ps) p.x = 0 := overNodes_zero fun k => by rw [rest_deforming h ha]; simp
  unfold Mpm.Scheme.particle at hr
  obtain ⟨o, ho, rfl⟩ := Option.map_eq_some_iff.mp hr
  refine ⟨S.trial ps p, o, ?_, rfl, rfl, rfl, (rest_velocity h ha hp).2, ho, ?_⟩
  · show (1 + S.dt • S.grad (S.deforming ps) p.x) * p.F = p.F
    rw [hg]; simp
  · rw [hplace, (rest_interp h ha p.x).1, (rest_velocity h ha hp).1]; simp

end
end scheme

/-! ### Steps and runs -/

section run
variable {R : Setup (d + 2)} {deg : Deg} {dx fr m vol : ℝ} {s : LoopState (d + 2) (World (d + 2))} {i e : Bool} {fuel : ℕ}

/-- Equilibrium: all particles are dormant, and at every node with mass the stresses balance gravity or the plates carry the
rest. -/
def InEquilibrium (R : Setup (d + 2)) (deg : Deg) (dx m vol : ℝ) (o g : Fin (d + 2) → ℝ) (ps : List (Particle (d + 2) ℝ))
    (plates : List (Plate (d + 2))) : Prop :=
  (∀ p ∈ ps, Dormant R.m p) ∧
  ∀ k : Fin (d + 2) → ℤ, ∀ X, X = (fun a => o a + k a * dx) → 0 < massAt deg dx m ps X →
    pullAt deg dx m vol g ps X = 0 ∨ Carried (max R.C.dtMax R.C.minDt) plates X (pullAt deg dx m vol g ps X)

lemma near_same {ps ps' : List (Particle (d + 2) ℝ)} (h : List.Forall₂ Unchanged ps ps') (X : Fin (d + 2) → ℝ) :
    massAt deg dx m ps' X = massAt deg dx m ps X ∧ ∀ g, pullAt deg dx m vol g ps' X = pullAt deg dx m vol g ps X := by
  classical
  have key : ∀ {M : Type} (f : Particle (d + 2) ℝ → M), (∀ p p', Unchanged p p' → f p' = f p) →
      (ps'.filter fun p => 1 / 10 ^ 25 < shape deg dx X p.x).map f = (ps.filter fun p => 1 / 10 ^ 25 < shape deg dx X p.x).map f := by
    intro M f hf
    induction h with
    | nil => rfl
    | @cons p p' l l' h1 _ ih =>
      simp only [List.filter_cons, h1.1]
      split_ifs
      · rw [List.map_cons, List.map_cons, ih, hf _ _ h1]
      · exact ih
  have h1 : massAt deg dx m ps' X = massAt deg dx m ps X := by
    have := key (fun p => shape deg dx X p.x) fun p p' h => by rw [h.1]
    unfold massAt
    rw [this]
  refine ⟨h1, fun g => ?_⟩
  unfold pullAt
  rw [h1, key (fun p => p.tau *ᵥ shapeGrad deg dx X p.x) fun p p' h => by rw [h.1, h.2.2.2.2.1]]

lemma InEquilibrium.unchanged {o g : Fin (d + 2) → ℝ} {ps ps' : List (Particle (d + 2) ℝ)} {plates : List (Plate (d + 2))}
    (h : InEquilibrium R deg dx m vol o g ps plates) (hu : List.Forall₂ Unchanged ps ps') :
    InEquilibrium R deg dx m vol o g ps' plates := by
  refine ⟨fun p hp => ?_, fun k X hX hm => ?_⟩
  · obtain ⟨q, hq, h1⟩ := forall₂_right hu p hp
    exact h1.dormant (h.1 q hq)
  · obtain ⟨h1, h2⟩ := near_same (deg := deg) (dx := dx) (m := m) (vol := vol) hu X
    rw [h1] at hm
    rw [h2]
    exact h.2 k X hX hm

lemma scheme_mass {S : Mpm.Scheme (d + 2)} (hA : Agrees S deg dx fr false m vol) (ps : List (Particle (d + 2) ℝ)) (X : Fin (d + 2) → ℝ) :
    S.nodeMass ps X = massAt deg dx m ps X := by
  unfold Mpm.Scheme.nodeMass Mpm.Scheme.near massAt
  rw [hA.deg, hA.dx, hA.mass, List.sum_map_mul_left]

lemma scheme_pull {S : Mpm.Scheme (d + 2)} (hA : Agrees S deg dx fr false m vol) (ps : List (Particle (d + 2) ℝ)) (X : Fin (d + 2) → ℝ) :
    (1 / S.nodeMass ps X) • S.nodeForce ps X + S.gravity = pullAt deg dx m vol S.gravity ps X := by
  have h : ∀ l : List (Fin (d + 2) → ℝ), (l.map fun v => vol • v).sum = vol • l.sum := fun l => by
    induction l with
    | nil => simp
    | cons a l ih => rw [List.map_cons, List.sum_cons, List.sum_cons, ih, smul_add]
  rw [scheme_mass hA]
  unfold Mpm.Scheme.nodeForce Mpm.Scheme.near pullAt
  rw [hA.deg, hA.dx, hA.volume, show ∀ l : List (Particle (d + 2) ℝ), l.map (fun p => vol • p.tau *ᵥ shapeGrad deg dx X p.x) =
    (l.map fun p => p.tau *ᵥ shapeGrad deg dx X p.x).map fun v => vol • v from fun l => by rw [List.map_map]; rfl, h,
    smul_neg, smul_smul, one_div_mul_eq_div, neg_add_eq_sub]

section
variable (hP : R.S.P = mkTransferParams deg dx fr false m vol) (hd : deg ≠ .one) (hdx : 0 < dx) (hm : 0 < m)
  (hpbc : R.S.pbc = false) (hcp : R.S.changePos = false) (hobj : R.objs = []) (hcarry : CarryOps R.ops) (hops : BrakeOps R.ops)
  (hstill : StillOps R.ops) (hok : Sensible R.m (d + 2)) (hsvd : ∀ F, IsSvd F (R.svd F))
include hP hd hdx hm hpbc hcp hobj hcarry hops hstill hok hsvd

/-- **C117** One step: a body in equilibrium stays as it is, and so do the plates; the nodes are at rest. -/
theorem C117_step {w w' : World (d + 2)} {dt time : ℝ} {grav o : Fin (d + 2) → ℝ} {n : ℕ} {ex : Bool} (hdt : 0 < dt)
    (hD : dt ≤ max R.C.dtMax R.C.minDt) (hsched : ∀ ps, (R.sched n ps).flatten.Perm ps) (hpl : ∀ p ∈ w.plates, PlateRests p)
    (heq : InEquilibrium R deg dx m vol o grav w.ps w.plates)
    (h : physStep R w dt grav time n = some (w', ex)) (ho : OnLattice o dx w'.g) :
    ex = false ∧ List.Forall₂ Unchanged w.ps w'.ps ∧ w'.plates = w.plates ∧
      ∀ i, IsNode w'.g i → w'.vel (flatIndex w'.g.size i) = 0 := by
  obtain ⟨h1, h2, h3, -⟩ := C105_step hP hd hdx hm hpbc hsched h ho
  set S := schemeOf R o dt grav w.plates with hS
  have hA : Agrees S deg dx fr false m vol := schemeOf_agrees hP
  have hrest : ∀ p ∈ w.ps, p.v = 0 ∧ p.Bmat = 0 := fun p hp => ⟨(heq.1 p hp).1, (heq.1 p hp).2.1⟩
  have hafter : ∀ k, S.after w.ps (S.node k) = 0 := by
    intro k
    have hnode : S.node k = fun a => o a + k a * dx := by
      funext a; rw [Mpm.Scheme.node, hA.dx]; rfl
    unfold Mpm.Scheme.after
    split_ifs with hpos
    · rw [scheme_mass hA] at hpos
      rw [scheme_pull hA, before_rest hrest, zero_add]
      show boundaryCollision R.ops R.S.P.useMibf _ dt R.objs w.plates 0 (S.node k) (dt • _) = 0
      rw [hobj, show R.S.P.useMibf = false by rw [hP]; rfl]
      rcases heq.2 k _ hnode hpos with h0 | h0
      · show boundaryCollision R.ops false _ dt [] w.plates 0 (S.node k) (dt • pullAt deg dx m vol grav w.ps (S.node k)) = 0
        rw [h0, smul_zero]
        have e : (fun own => wallFriction false (fun _ => S.nodeFriction w.ps (S.node k)) 0 own) = fun x => x := by
          funext x; simp [wallFriction]
        show collidePlates R.ops.inside R.ops.rel (fun own => wallFriction false _ 0 own) (S.node k + dt • 0) w.plates 0 = 0
        rw [e]
        exact fold_zero hops hpl _
      · exact carried_stops hcarry hops hpl hdt hD h0 _ _
    · rfl
  have hplace : S.place = id := by
    show (if R.S.changePos then reinsert else id) = id
    rw [hcp]; rfl
  have hpart : ∀ p ∈ w.ps, ∀ r, S.particle w.ps p = some r → r.2 = false ∧ Unchanged p r.1 := by
    intro p hp r hr
    obtain ⟨q, o', q1, q2, q3, q4, q5, hlaw, rfl⟩ := rest_particle hrest hafter hp hplace hr
    obtain ⟨out, ho', rfl⟩ := Option.map_eq_some_iff.mp (show plasticUpdate R dt q = some o' from hlaw)
    obtain ⟨l1, l2⟩ := dormant_law hok hsvd (heq.1 p hp) q1 q2 ho'
    refine ⟨l1, rfl, (hrest p hp).1.symm, ?_, ?_, ?_, ?_, ?_, ?_⟩
    · show out.q.Bmat = p.Bmat
      rw [l2, (hrest p hp).2]; exact q5
    · show out.q.F = p.F
      rw [l2]; exact q1
    · show out.q.tau = p.tau
      rw [l2]
    · show out.q.epsPlDev = _
      rw [l2]; exact q3
    · show out.q.epsPlVol = _
      rw [l2]; exact q2
    · show out.q.epsPlVolPradhana = _
      rw [l2]; exact q4
  unfold Mpm.Scheme.step at h1
  obtain ⟨rs, hrs, h1⟩ := Option.map_eq_some_iff.mp h1
  have hall := (Rotation.forall₂_of_mapM hrs).imp fun p r h => hpart p h.1 r h.2
  simp only [Prod.mk.injEq] at h1
  refine ⟨?_, ?_, ?_, fun i hi => ?_⟩
  · rw [← h1.2, List.any_eq_false]
    intro r hr
    obtain ⟨p, -, h⟩ := forall₂_right hall r hr
    simp [h.1]
  · rw [← h1.1, List.forall₂_map_right_iff]
    exact hall.imp fun _ _ h => h.2
  · rw [h2]
    conv_rhs => rw [← List.map_id w.plates]
    exact List.map_congr_left fun p hp => hstill.move p _ _ _ (hpl p hp).2.1 (hpl p hp).1
  · obtain ⟨⟨k, hk⟩, -, h5, -⟩ := h3 i hi
    rw [h5, hk]
    exact rest_deforming hrest hafter k

variable (hgrav : R.C.gravitySpecial = false) (hmin : 0 < R.C.minDt) (hfresh : s.step = 0) (hne : s.w.ps ≠ [])
  (hsched : ∀ k ps, (R.sched k ps).flatten.Perm ps) (hpl : ∀ p ∈ s.w.plates, PlateRests p) {o : Fin (d + 2) → ℝ}
  (ho : ∀ a, IsLeast (coords R.S.ref (s.w.ps.map fun p => p.x) a) (o a))
  (heq : InEquilibrium R deg dx m vol o s.gravity s.w.ps s.w.plates)
include hgrav hmin hfresh hne hsched hpl ho heq

lemma equilibrium_step {s1 : LoopState (d + 2) (World (d + 2))} {dt : ℝ} {g : Fin (d + 2) → ℝ} {w : World (d + 2)}
    (hst : StepOf R s s1 dt g w) (h1 : List.Forall₂ Unchanged s.w.ps s1.w.ps) (h2 : s1.w.plates = s.w.plates) :
    List.Forall₂ Unchanged s.w.ps w.ps ∧ w.plates = s.w.plates ∧ ∀ i, IsNode w.g i → w.vel (flatIndex w.g.size i) = 0 := by
  have hg : g = s.gravity := by
    rw [hst.gravity_at, gravityAt, hgrav]; simp
  have hdt : 0 < dt := lt_of_lt_of_le hmin hst.dt_ge.1
  subst hg
  obtain ⟨-, h3, h4, h5⟩ := C117_step hP hd hdx hm hpbc hcp hobj hcarry hops hstill hok hsvd hdt hst.dt_le (hsched _)
    (by rw [h2]; exact hpl) (by rw [h2]; exact heq.unchanged h1) hst.phys
    (step_onLattice hP hd hdx hm hpbc hfresh hne hsched ho hst)
  refine ⟨?_, h4.trans h2, h5⟩
  have : ∀ {a b c : List (Particle (d + 2) ℝ)}, List.Forall₂ Unchanged a b → List.Forall₂ Unchanged b c → List.Forall₂ Unchanged a c := by
    intro a b c hab
    induction hab generalizing c with
    | nil => intro h; cases h; exact .nil
    | cons h _ ih =>
      intro h'
      cases h' with
      | cons h2 h3 => exact .cons (h.trans h2) (ih h3)
  exact this h1 h3

lemma equilibrium_reach : ∀ k s1, Reach R.C (physics R) s.gravity (begin R s) k s1 →
    List.Forall₂ Unchanged s.w.ps s1.w.ps ∧ s1.w.plates = s.w.plates := by
  have hb : (begin R s).w = s.w := by
    rw [begin_w, fillMuI, show R.S.P.useMibf = false by rw [hP]; rfl]; simp
  intro k s1 hr
  refine reach_inv (Inv := fun w _ _ _ => List.Forall₂ Unchanged s.w.ps w.ps ∧ w.plates = s.w.plates) ?_ ?_ hr
  · rw [hb]
    exact ⟨List.forall₂_same.mpr fun p _ => .refl p, rfl⟩
  · intro k s2 dt g w hs hi
    have := equilibrium_step hP hd hdx hm hpbc hcp hobj hcarry hops hstill hok hsvd hgrav hmin hfresh hne hsched hpl ho heq
      ⟨k, hs⟩ hi.1 hi.2
    exact ⟨this.1, this.2.1⟩

/-- **C117** All particle files of a run that starts in equilibrium show the initial particles. -/
theorem C117_run {n : ℕ} {t : ℝ} {w : World (d + 2)}
    (hev : .particles n t w ∈ filesOf (runProgram R i e fuel s)) (hnew : .particles n t w ∉ s.out) :
    List.Forall₂ Unchanged s.w.ps w.ps ∧ w.plates = s.w.plates := by
  rcases run_particles hev hnew with ⟨-, -, rfl⟩ | ⟨s1, dt, g, hst, rfl⟩
  · exact equilibrium_reach hP hd hdx hm hpbc hcp hobj hcarry hops hstill hok hsvd hgrav hmin hfresh hne hsched hpl ho heq _ _ .start
  · obtain ⟨k, hk⟩ := hst
    have hi := equilibrium_reach hP hd hdx hm hpbc hcp hobj hcarry hops hstill hok hsvd hgrav hmin hfresh hne hsched hpl ho heq _ _ hk.1
    have := equilibrium_step hP hd hdx hm hpbc hcp hobj hcarry hops hstill hok hsvd hgrav hmin hfresh hne hsched hpl ho heq
      ⟨k, hk⟩ hi.1 hi.2
    exact ⟨this.1, this.2.1⟩

/-- **C117** In all grid files of such a run the velocities are zero. -/
theorem C117_grid {n : ℕ} {t : ℝ} {w : World (d + 2)}
    (hev : .grid n t w ∈ filesOf (runProgram R i e fuel s)) (hnew : .grid n t w ∉ s.out) :
    ∀ r ∈ gridRows w, r.2.1 = 0 := by
  obtain ⟨s1, dt, g, ⟨k, hk⟩, rfl⟩ := run_grid hev hnew
  have hi := equilibrium_reach hP hd hdx hm hpbc hcp hobj hcarry hops hstill hok hsvd hgrav hmin hfresh hne hsched hpl ho heq _ _ hk.1
  have := equilibrium_step hP hd hdx hm hpbc hcp hobj hcarry hops hstill hok hsvd hgrav hmin hfresh hne hsched hpl ho heq
    ⟨k, hk⟩ hi.1 hi.2
  intro r hr
  rw [gridRows_eq] at hr
  obtain ⟨j, hj, rfl⟩ := List.mem_map.mp hr
  exact this.2.2 j (mem_allNodes.mp hj)

/-- **C117** The run completes: all frames are written, and all of them show the initial particles. -/
theorem C117_completes (hrob : Robust R) (hnf : NeverFails R.m) (hacc : accepted i R.m.elastic R.m.plastic e = true)
    (hfuel : 1 ≤ fuel) (hN : R.C.endFrame / R.C.fps ≤ fuel * R.C.minDt)
    (hfd : R.C.minDt * (11 / 10) ≤ 1 / R.C.fps) (hsave : R.C.saveSim = true) (hend : 1 ≤ R.C.endFrame) (hout : s.out = []) :
    ∃ r, runProgram R i e fuel s = .finished r ∧
      (∀ n ≤ R.C.endFrame, ∃ t w, .particles n t w ∈ r.out) ∧
      ∀ n t w, .particles n t w ∈ r.out → List.Forall₂ Unchanged s.w.ps w.ps := by
  have hPdx : R.S.P.dx = dx := by rw [hP]; rfl
  obtain ⟨r, h1, -, t, w, h2, -⟩ := C61_completes (e := e) (i := i) (fuel := fuel) hP hdx hpbc hfresh hne hsched hrob hnf hacc hmin hfuel
    hN hfd hsave hend fun k s1 hr hk => by
      have hF := (equilibrium_reach hP hd hdx hm hpbc hcp hobj hcarry hops hstill hok hsvd hgrav hmin hfresh hne hsched hpl ho heq
        _ _ hr).1
      have hx : ∀ q ∈ s1.w.ps, ∃ p ∈ s.w.ps, q.x = p.x := fun q hq => (forall₂_right hF q hq).imp fun p h => ⟨h.1, h.2.1⟩
      rintro ⟨a, y, y0, ⟨⟨⟨q, hq, rfl⟩, -⟩, ⟨-, h0⟩, hw, -⟩ | ⟨⟨⟨q, hq, rfl⟩, -⟩, ⟨-, h0⟩, hw, -⟩⟩
      all_goals
        obtain ⟨p, hp, e⟩ := hx q hq
        have hmem : q.x a ∈ coords R.S.ref (s.w.ps.map fun p => p.x) a := by
          exact .inl ⟨p.x, List.mem_map.mpr ⟨p, hp, rfl⟩, by rw [e]⟩
        have := h0 hmem
        rw [hPdx, le_div_iff₀ hdx] at hw
        linarith
  refine ⟨r, h1, fun n hn => ?_, fun n t w hw => ?_⟩
  · rcases Nat.eq_zero_or_pos n with rfl | hpos
    · exact ⟨0, fillMuI R.m R.S.P.useMibf s.w, by rw [h2]; simp⟩
    · refine ⟨t n, w n, ?_⟩
      rw [h2]
      simp only [List.mem_append, List.mem_flatMap, List.mem_range]
      refine .inl (.inl (.inr ⟨n - 1, by omega, ?_⟩))
      rw [Nat.sub_add_cancel hpos]
      simp [frameFiles]
  · exact (C117_run (e := e) (i := i) (fuel := fuel) hP hd hdx hm hpbc hcp hobj hcarry hops hstill hok hsvd hgrav hmin hfresh hne hsched
      hpl ho heq (n := n) (t := t) (w := w) (by rw [h1]; exact hw) (by rw [hout]; simp)).1

end
end run

end
end Verif.Props
