import Verif.Props.Walls
import Mathlib.Analysis.SpecialFunctions.Trigonometric.DerivHyp
import Mathlib.Analysis.Calculus.Deriv.Slope
import Mathlib.Analysis.Calculus.Deriv.Inv

set_option linter.unusedSectionVars false
set_option linter.unusedSimpArgs false

/-!
# C32, C33: motion of plates, normals of terrain objects
-/

namespace Verif.Props
open Verif Matrix Filter Topology

/-! ### C32 -/

/-- `n` steps of a plate: `moveObjects` is called at the end of step `k` with time step `dt k` and
the time `time k` before that step. -/
noncomputable def plateRun2 (p : Plate 2) (frameDt : ℝ) (dt time : ℕ → ℝ) : ℕ → Plate 2
  | 0 => p
  | n + 1 => (plateRun2 p frameDt dt time n).move2 (dt n) frameDt (time n)

/-- Same in 3D. -/
noncomputable def plateRun3 (p : Plate 3) (frameDt : ℝ) (dt time : ℕ → ℝ) : ℕ → Plate 3
  | 0 => p
  | n + 1 => (plateRun3 p frameDt dt time n).move3 (dt n) frameDt (time n)

/-- The velocity factor prescribed at a time: `1/vmin_factor` while loading, then 1. -/
noncomputable def loadScale (vmin load frameDt t : ℝ) : ℝ := if t < load * frameDt then 1 / vmin else 1

/-- **C32** (2D) After `n` steps the plate has moved along its normal axis and sideways by the sum of
`dt` times the prescribed, scaled velocity; its extent and its properties are unchanged; its velocity
is the prescribed one scaled by the factor of the last step. -/
theorem C32_motion2 (p : Plate 2) (frameDt : ℝ) (dt time : ℕ → ℝ) (n : ℕ)
    (ht : p.type ≠ .front ∧ p.type ≠ .back) :
    let q := plateRun2 p frameDt dt time n
    let shift := ∑ k ∈ Finset.range n, (dt k * loadScale p.vminFactor p.loadFactor frameDt (time k)) • p.velOrig
    (fun _ => q.pos) ⬝ᵥ normal2 p.type = (fun _ => p.pos) ⬝ᵥ normal2 p.type + shift ⬝ᵥ normal2 p.type ∧
    (∀ a, normal2 p.type a = 0 → q.lower = p.lower + shift a ∧ q.upper = p.upper + shift a) ∧
    q.type = p.type ∧ q.bc = p.bc ∧ q.friction = p.friction ∧ q.velOrig = p.velOrig ∧
    q.vminFactor = p.vminFactor ∧ q.loadFactor = p.loadFactor ∧
    q.vel = match n with
      | 0 => p.vel
      | k + 1 => loadScale p.vminFactor p.loadFactor frameDt (time k) • p.velOrig := by
  induction n with
  | zero => simp [plateRun2]
  | succ n ih =>
    obtain ⟨h1, h2, h3, h4, h5, h6, h7, h8, _⟩ := ih
    set q := plateRun2 p frameDt dt time n with hq
    have hf : q.factor frameDt (time n) = loadScale p.vminFactor p.loadFactor frameDt (time n) := by
      simp only [Plate.factor, loadScale, h7, h8]
    have e2 : ∀ c : ℝ, (![p.velOrig 0 * c, p.velOrig 1 * c] : Fin 2 → ℝ) = c • p.velOrig := by
      intro c; funext a; fin_cases a <;> simp [mul_comm]
    simp only [plateRun2, ← hq, Plate.move2, h3, h6, hf, e2, Finset.sum_range_succ]
    cases htype : p.type
    all_goals simp only [htype, normal2, Fin.forall_fin_two, dotProduct, Fin.sum_univ_two] at h1 h2 ht ⊢
    all_goals simp at h1 h2 ht ⊢
    · exact ⟨by linarith, ⟨by rw [h2.1]; ring, by rw [h2.2]; ring⟩, h4, h5, h7, h8⟩
    · exact ⟨by rw [h1]; ring, ⟨by rw [h2.1]; ring, by rw [h2.2]; ring⟩, h4, h5, h7, h8⟩
    · exact ⟨by rw [h1]; ring, ⟨by rw [h2.1]; ring, by rw [h2.2]; ring⟩, h4, h5, h7, h8⟩
    · exact ⟨by linarith, ⟨by rw [h2.1]; ring, by rw [h2.2]; ring⟩, h4, h5, h7, h8⟩

/-- **C32** (3D) -/
theorem C32_motion3 (p : Plate 3) (frameDt : ℝ) (dt time : ℕ → ℝ) (n : ℕ) :
    let q := plateRun3 p frameDt dt time n
    let shift := ∑ k ∈ Finset.range n, (dt k * loadScale p.vminFactor p.loadFactor frameDt (time k)) • p.velOrig
    (fun _ => q.pos) ⬝ᵥ normal3 p.type = (fun _ => p.pos) ⬝ᵥ normal3 p.type + shift ⬝ᵥ normal3 p.type ∧
    (∀ a, a ≠ 2 → normal3 p.type a = 0 → p.type ≠ .front ∧ p.type ≠ .back →
      q.lower = p.lower + shift a ∧ q.upper = p.upper + shift a) ∧
    q.upper - q.lower = p.upper - p.lower ∧
    q.type = p.type ∧ q.bc = p.bc ∧ q.friction = p.friction ∧ q.velOrig = p.velOrig ∧
    q.vminFactor = p.vminFactor ∧ q.loadFactor = p.loadFactor ∧
    q.vel = match n with
      | 0 => p.vel
      | k + 1 => loadScale p.vminFactor p.loadFactor frameDt (time k) • p.velOrig := by
  induction n with
  | zero => simp [plateRun3]
  | succ n ih =>
    obtain ⟨h1, h2, h9, h3, h4, h5, h6, h7, h8, _⟩ := ih
    set q := plateRun3 p frameDt dt time n with hq
    have hf : q.factor frameDt (time n) = loadScale p.vminFactor p.loadFactor frameDt (time n) := by
      simp only [Plate.factor, loadScale, h7, h8]
    have e2 : ∀ c : ℝ, (![p.velOrig 0 * c, p.velOrig 1 * c, p.velOrig 2 * c] : Fin 3 → ℝ) =
        c • p.velOrig := by
      intro c; funext a; fin_cases a <;> simp [mul_comm]
    simp only [plateRun3, ← hq, Plate.move3, h3, h6, hf, e2, Finset.sum_range_succ]
    cases htype : p.type
    all_goals simp only [htype, normal3, Fin.forall_fin_succ, dotProduct, Fin.sum_univ_three] at h1 h2 ⊢
    all_goals simp at h1 h2 ⊢
    · exact ⟨by linarith, ⟨by rw [h2.1]; ring, by rw [h2.2]; ring⟩, h9, h4, h5, h7, h8⟩
    · exact ⟨by rw [h1]; ring, ⟨by rw [h2.1]; ring, by rw [h2.2]; ring⟩, h9, h4, h5, h7, h8⟩
    · exact ⟨by rw [h1]; ring, ⟨by rw [h2.1]; ring, by rw [h2.2]; ring⟩, h9, h4, h5, h7, h8⟩
    · exact ⟨by linarith, ⟨by rw [h2.1]; ring, by rw [h2.2]; ring⟩, h9, h4, h5, h7, h8⟩
    · exact ⟨by linarith, h9, h4, h5, h7, h8⟩
    · exact ⟨by rw [h1]; ring, h9, h4, h5, h7, h8⟩

/-- A lid pressed down with a tenth of its speed during the first frame. -/
noncomputable def lid : Plate 2 :=
  ⟨1, .top, .noSlip, 0, -1, 1, ![0, -1/2], ![0, -1/2], 10, 1⟩

example := C32_motion2 lid (1/10) (fun _ => 1/100) (fun k => k / 100) 30 (by simp [lid])

/-- In the first step the material meets the lid with its unscaled velocity, although the lid itself
moves with the scaled one: the position and the imposed velocity disagree by the factor 10. -/
theorem C32_first_step_unscaled :
    (∀ X v : Fin 2 → ℝ, Behind2 lid (X + (1/100 : ℝ) • v) →
      boundaryCollision2 false (fun _ => 0) (1/100) [] [lid] 0 X v = ![0, -1/2]) ∧
    (lid.move2 (1/100) (1/10) 0).pos = lid.pos + 1/100 * (-1/20) := by
  constructor
  · intro X v h
    exact C27_plate2 (pre := []) (post := []) rfl h (by simp)
  · norm_num [Plate.move2, lid, Plate.factor]

/-! ### C33 -/

lemma eventually_pos_of_deriv {φ : ℝ → ℝ} {c : ℝ} (h : HasDerivAt φ c 0) (h0 : φ 0 = 0) (hc : 0 < c) :
    (∀ᶠ t in 𝓝[>] (0 : ℝ), 0 < φ t) ∧ (∀ᶠ t in 𝓝[>] (0 : ℝ), φ (-t) < 0) := by
  have hs := hasDerivAt_iff_tendsto_slope.mp h
  have hev : ∀ᶠ t in 𝓝[≠] (0 : ℝ), 0 < slope φ 0 t := hs.eventually_const_lt hc
  constructor
  · have := hev.filter_mono (nhdsWithin_mono 0 (fun t (ht : 0 < t) => ht.ne'))
    filter_upwards [this, self_mem_nhdsWithin] with t ht ht0
    have ht0 : 0 < t := ht0
    rw [slope_def_field, h0, sub_zero, sub_zero] at ht
    exact (div_pos_iff_of_pos_right ht0).mp ht
  · have htend : Tendsto (fun t : ℝ => -t) (𝓝[>] 0) (𝓝[≠] 0) := by
      apply tendsto_nhdsWithin_of_tendsto_nhds_of_eventually_within
      · have : Tendsto (fun t : ℝ => -t) (𝓝 0) (𝓝 (-0)) := continuous_neg.tendsto 0
        rw [neg_zero] at this
        exact this.mono_left nhdsWithin_le_nhds
      · filter_upwards [self_mem_nhdsWithin] with t ht
        exact (neg_neg_of_pos ht).ne
    filter_upwards [htend.eventually hev, self_mem_nhdsWithin] with t ht ht0
    have ht0 : 0 < t := ht0
    rw [slope_def_field, h0, sub_zero, sub_zero] at ht
    by_contra hcon
    exact absurd ht (not_lt.mpr (div_nonpos_of_nonneg_of_nonpos (not_lt.mp hcon) (by linarith)))

/-- What is required of the normal of an object bounded by the graph `y = f x`: unit length, normal to
the graph's tangent, no component in the remaining directions, and at surface points it leads out of
the object, its opposite into it. -/
def NormalOK {d : ℕ} (o : GenObject (d + 2)) (f : ℝ → ℝ) : Prop :=
  ∀ X, o.normal X ⬝ᵥ o.normal X = 1 ∧
    (∃ f', HasDerivAt f f' (X 0) ∧ 1 * o.normal X 0 + f' * o.normal X 1 = 0) ∧
    (∀ a, a ≠ 0 → a ≠ 1 → o.normal X a = 0) ∧
    (X 1 = f (X 0) → (∀ᶠ t in 𝓝[>] (0 : ℝ), ¬ o.inside (X + t • o.normal X)) ∧
      (∀ᶠ t in 𝓝[>] (0 : ℝ), o.inside (X - t • o.normal X)))

lemma dot_xy {d : ℕ} (a b : ℝ) : (xy a b : Fin (d + 2) → ℝ) ⬝ᵥ xy a b = a * a + b * b := by
  rw [dotProduct, Fin.sum_univ_succ, Fin.sum_univ_succ]
  have : ∀ i : Fin d, (xy a b : Fin (d + 2) → ℝ) i.succ.succ = 0 := by
    intro i
    simp [xy, Fin.ext_iff]
  simp only [this, mul_zero, Finset.sum_const_zero, add_zero]
  simp [xy, Fin.ext_iff]

lemma normalized_pos {d : ℕ} {v : Fin d → ℝ} (h : v ⬝ᵥ v > 0) :
    ∃ c : ℝ, 0 < c ∧ normalized v = c • v ∧ normalized v ⬝ᵥ normalized v = 1 := by
  have hs : 0 < Real.sqrt (v ⬝ᵥ v) := Real.sqrt_pos.mpr h
  refine ⟨1 / Real.sqrt (v ⬝ᵥ v), by positivity, ?_, ?_⟩
  · simp only [normalized, if_pos h]
  · simp only [normalized, if_pos h, smul_dotProduct, dotProduct_smul, smul_eq_mul]
    have := Real.mul_self_sqrt h.le
    field_simp
    rw [sq, this]

/-- Objects below a graph (`s = 1`) or above it (`s = -1`). -/
lemma normalOK_graph {d : ℕ} {o : GenObject (d + 2)} {f f' : ℝ → ℝ} {s : ℝ} (hs : s = 1 ∨ s = -1)
    (hf : ∀ x, HasDerivAt f (f' x) x)
    (hn : ∀ X, o.normal X = normalized (s • xy (-f' (X 0)) 1))
    (hin : ∀ X, s * (X 1 - f (X 0)) < 0 → o.inside X)
    (hout : ∀ X, 0 < s * (X 1 - f (X 0)) → ¬ o.inside X) : NormalOK o f := by
  have hss : s * s = 1 := by rcases hs with rfl | rfl <;> norm_num
  intro X
  have hpos : (s • xy (-f' (X 0)) 1 : Fin (d + 2) → ℝ) ⬝ᵥ (s • xy (-f' (X 0)) 1) > 0 := by
    rw [smul_dotProduct, dotProduct_smul, dot_xy, smul_eq_mul, smul_eq_mul, ← mul_assoc, hss]
    nlinarith [mul_self_nonneg (f' (X 0))]
  obtain ⟨c, hc, h1, h2⟩ := normalized_pos hpos
  have n0 : o.normal X 0 = c * s * (-f' (X 0)) := by
    rw [hn, h1]; simp [xy]; ring
  have n1 : o.normal X 1 = c * s := by
    rw [hn, h1]; simp [xy, Fin.ext_iff]
  refine ⟨by rw [hn]; exact h2, ⟨f' (X 0), hf _, by rw [n0, n1]; ring⟩, ?_, ?_⟩
  · intro a ha0 ha1
    rw [hn, h1]; simp [xy, ha0, ha1]
  · intro hX
    have hd : HasDerivAt (fun t : ℝ => s * ((X 1 + t * o.normal X 1) - f (X 0 + t * o.normal X 0)))
        (s * (o.normal X 1 - f' (X 0) * o.normal X 0)) 0 := by
      have ha : HasDerivAt (fun t : ℝ => X 1 + t * o.normal X 1) (o.normal X 1) 0 := by
        simpa using ((hasDerivAt_id (0 : ℝ)).mul_const (o.normal X 1)).const_add (X 1)
      have hb : HasDerivAt (fun t : ℝ => X 0 + t * o.normal X 0) (o.normal X 0) 0 := by
        simpa using ((hasDerivAt_id (0 : ℝ)).mul_const (o.normal X 0)).const_add (X 0)
      have hc' : HasDerivAt (fun t : ℝ => f (X 0 + t * o.normal X 0)) (f' (X 0) * o.normal X 0) 0 := by
        have h0 : X 0 + 0 * o.normal X 0 = X 0 := by ring
        exact HasDerivAt.comp (h₂ := f) (0 : ℝ) (by rw [h0]; exact hf (X 0)) hb
      exact (ha.sub hc').const_mul s
    have hcpos : 0 < s * (o.normal X 1 - f' (X 0) * o.normal X 0) := by
      rw [n0, n1]
      have : s * (c * s - f' (X 0) * (c * s * -f' (X 0))) = (s * s) * c * (1 + f' (X 0) * f' (X 0)) := by
        ring
      rw [this, hss, one_mul]
      exact mul_pos hc (by nlinarith [mul_self_nonneg (f' (X 0))])
    obtain ⟨e1, e2⟩ := eventually_pos_of_deriv hd (by simp [hX]) hcpos
    constructor
    · filter_upwards [e1] with t ht
      exact hout _ (by simpa using ht)
    · filter_upwards [e2] with t ht
      refine hin _ ?_
      have : ∀ a, (X - t • o.normal X) a = X a + -t * o.normal X a := by
        intro a; simp [sub_eq_add_neg]
      rw [this, this]; exact ht

/-- **C33** bump -/
theorem C33_bump {d : ℕ} (bc : BC) (μ : ℝ) :
    NormalOK (objectBump (d := d) bc μ) (fun x => 0.0475 / Real.cosh (25 * (x - 0.43))) := by
  refine normalOK_graph (s := 1)
    (f' := fun x => -25 * 0.0475 * Real.tanh (25 * (x - 0.43)) / Real.cosh (25 * (x - 0.43)))
    (Or.inl rfl) ?_ ?_ ?_ ?_
  · intro x
    have hc := Real.cosh_pos (25 * (x - 0.43))
    have h1 : HasDerivAt (fun x : ℝ => 25 * (x - 0.43)) 25 x := by
      simpa using ((hasDerivAt_id x).sub_const (0.43 : ℝ)).const_mul (25 : ℝ)
    have h2 := (h1.cosh.fun_inv hc.ne').const_mul (0.0475 : ℝ)
    have e : (fun x => (0.0475 : ℝ) / Real.cosh (25 * (x - 0.43))) =
        fun x => 0.0475 * (Real.cosh (25 * (x - 0.43)))⁻¹ := by funext y; rw [div_eq_mul_inv]
    rw [e]
    refine h2.congr_deriv ?_
    rw [Real.tanh_eq_sinh_div_cosh]
    field_simp
  · intro X; rw [one_smul]; rfl
  · intro X h; show X 1 < _; linarith
  · intro X h hin
    have hin : X 1 < 0.0475 / Real.cosh (25 * (X 0 - 0.43)) := hin
    linarith

/-- **C33** curve -/
theorem C33_curve {d : ℕ} (bc : BC) (μ : ℝ) :
    NormalOK (objectCurve (d := d) bc μ) (fun x => x * x) := by
  refine normalOK_graph (s := 1) (f' := fun x => 2 * x) (Or.inl rfl) ?_ ?_ ?_ ?_
  · intro x
    have := (hasDerivAt_id x).mul (hasDerivAt_id x)
    refine this.congr_deriv ?_
    simp; ring
  · intro X
    rw [one_smul]
    show normalized (xy (-2 * X 0) 1) = _
    rw [neg_mul]
  · intro X h; show ¬ (X 1 > X 0 * X 0); intro h'; linarith
  · intro X h hin
    have hin : ¬ (X 1 > X 0 * X 0) := hin
    exact hin (by linarith)

/-- **C33** gate (the object lies above its surface) -/
theorem C33_gate {d : ℕ} (height : ℝ) (bc : BC) (μ : ℝ) :
    NormalOK (objectGate (d := d) height bc μ) (fun x => height + 100 * x * x) := by
  refine normalOK_graph (s := -1) (f' := fun x => 2 * 100 * x) (Or.inr rfl) ?_ ?_ ?_ ?_
  · intro x
    have := ((((hasDerivAt_id x).const_mul (100 : ℝ)).mul (hasDerivAt_id x))).const_add height
    refine this.congr_deriv ?_
    simp; ring
  · intro X; rfl
  · intro X h; show X 1 > _; linarith
  · intro X h hin
    have hin : X 1 > height + 100 * X 0 * X 0 := hin
    linarith

/-- **C33** ramp -/
theorem C33_ramp {d : ℕ} (bc : BC) (μ : ℝ) :
    NormalOK (objectRamp (d := d) bc μ) (fun x => 0.1 * Real.tanh (-100 * x)) := by
  refine normalOK_graph (s := 1)
    (f' := fun x => 0.1 * (-100) / (Real.cosh (-100 * x) * Real.cosh (-100 * x)))
    (Or.inl rfl) ?_ ?_ ?_ ?_
  · intro x
    have hc := Real.cosh_pos (-100 * x)
    have h1 : HasDerivAt (fun x : ℝ => -100 * x) (-100) x := by
      simpa using (hasDerivAt_id x).const_mul (-100 : ℝ)
    have h2 := ((h1.sinh.fun_div h1.cosh hc.ne')).const_mul (0.1 : ℝ)
    have e : (fun x => (0.1 : ℝ) * Real.tanh (-100 * x)) =
        fun x => 0.1 * (Real.sinh (-100 * x) / Real.cosh (-100 * x)) := by
      funext y; rw [Real.tanh_eq_sinh_div_cosh]
    rw [e]
    refine h2.congr_deriv ?_
    have hid := Real.cosh_sq (-100 * x)
    generalize -100 * x = y at hid hc ⊢
    field_simp
    rw [hid]; ring
  · intro X; rw [one_smul]; rfl
  · intro X h; show X 1 < _; linarith
  · intro X h hin
    have hin : X 1 < 0.1 * Real.tanh (-100 * X 0) := hin
    linarith

/-- **C33** ground, 2D -/
theorem C33_ground2 (y : ℝ) (junk : Fin 2 → ℝ) (bc : BC) (μ : ℝ) :
    NormalOK (objectGround (d := 0) y junk bc μ) (fun _ => y) := by
  refine normalOK_graph (s := 1) (f' := fun _ => 0) (Or.inl rfl) (fun x => hasDerivAt_const x y) ?_ ?_ ?_
  · intro X
    have hv : (1 : ℝ) • (xy (-0) 1 : Fin (0 + 2) → ℝ) = ![0, 1] := by
      funext a; fin_cases a <;> simp [xy]
    have hd : (![0, 1] : Fin 2 → ℝ) ⬝ᵥ ![0, 1] = 1 := by simp [dotProduct]
    rw [hv]
    unfold normalized
    rw [if_pos (by rw [hd]; norm_num), hd, Real.sqrt_one, one_div_one, one_smul]
    funext a; fin_cases a <;> simp [objectGround]
  · intro X h; show ¬ (X 1 > y); intro h'; linarith
  · intro X h hin
    have hin : ¬ (X 1 > y) := hin
    exact hin (by linarith)

/-- In 3D the normal of the ground has an uninitialised third component; it is a unit normal exactly
when the indeterminate value happens to be zero. -/
theorem C33_ground3_iff (y : ℝ) (junk : Fin 3 → ℝ) (bc : BC) (μ : ℝ) (X : Fin 3 → ℝ) :
    let n := (objectGround (d := 1) y junk bc μ).normal X
    n ⬝ᵥ n = 1 ↔ junk 2 = 0 := by
  intro n
  have h0 : n 0 = 0 := rfl
  have h1 : n 1 = 1 := rfl
  have h2 : n 2 = junk 2 := rfl
  rw [dotProduct, Fin.sum_univ_three, h0, h1, h2]
  constructor
  · intro h; nlinarith [mul_self_nonneg (junk 2)]
  · intro h; rw [h]; norm_num

/-- Hence the claim of C33 fails for `ObjectGround` in 3D. -/
theorem C33_ground3_false : ∃ junk : Fin 3 → ℝ, ∀ y bc μ,
    ¬ NormalOK (objectGround (d := 1) y junk bc μ) (fun _ => y) :=
  ⟨fun _ => 1, fun y bc μ h => by
    have := (C33_ground3_iff y (fun _ => 1) bc μ 0).mp (h 0).1
    norm_num at this⟩

/-- **C33** silo (3D): unit length everywhere; off the axis, orthogonal to the circle around the axis
and to the profile curve `r = tanh y + 1`; at surface points above the cut it leads into the free
interior, its opposite into the wall. -/
theorem C33_silo (cut : ℝ) (bc : BC) (μ : ℝ) (X : Fin 3 → ℝ) :
    let o := objectSilo cut bc μ
    let n := o.normal X
    n ⬝ᵥ n = 1 ∧
    n ⬝ᵥ ![-X 2, 0, X 0] = 0 ∧
    (∃ r', HasDerivAt (fun y => Real.tanh y + 1) r' (X 1) ∧
      n ⬝ᵥ ![r' * X 0, Real.sqrt (X 0 * X 0 + X 2 * X 2), r' * X 2] = 0) ∧
    (cut < X 1 → Real.sqrt (X 0 * X 0 + X 2 * X 2) = Real.tanh (X 1) + 1 →
      (∀ᶠ t in 𝓝[>] (0 : ℝ), ¬ o.inside (X + t • n)) ∧
      (∀ᶠ t in 𝓝[>] (0 : ℝ), o.inside (X - t • n))) := by
  intro o n
  set r := Real.sqrt (X 0 * X 0 + X 2 * X 2) with hr
  have hr0 : 0 ≤ r := Real.sqrt_nonneg _
  have hrsq : r * r = X 0 * X 0 + X 2 * X 2 :=
    Real.mul_self_sqrt (add_nonneg (mul_self_nonneg _) (mul_self_nonneg _))
  set θ := Complex.arg ⟨X 0, X 2⟩ with hθ
  have hnorm : ‖(⟨X 0, X 2⟩ : ℂ)‖ = r := by
    rw [Complex.norm_def, Complex.normSq_apply]
  have hcs : Real.cos θ * r = X 0 ∧ Real.sin θ * r = X 2 := by
    by_cases hz : r = 0
    · have h0 : X 0 = 0 ∧ X 2 = 0 := by
        rw [hz, mul_zero] at hrsq
        constructor <;> nlinarith [mul_self_nonneg (X 0), mul_self_nonneg (X 2)]
      rw [hz, h0.1, h0.2]; simp
    · have hne : (⟨X 0, X 2⟩ : ℂ) ≠ 0 := fun h => hz (by rw [← hnorm, h, norm_zero])
      rw [hθ, Complex.cos_arg hne, Complex.sin_arg, hnorm]
      constructor <;> field_simp
  set s := 1 / Real.cosh (X 1) with hs
  have hcosh := Real.cosh_pos (X 1)
  have hspos : 0 < s := by rw [hs]; positivity
  have hpyth : Real.cos θ * Real.cos θ + Real.sin θ * Real.sin θ = 1 := by
    have := Real.cos_sq_add_sin_sq θ; nlinarith
  set m : Fin 3 → ℝ := ![-Real.cos θ, s * s, -Real.sin θ] with hm
  have hmm : m ⬝ᵥ m > 0 := by
    have : m ⬝ᵥ m = 1 + (s * s) * (s * s) := by
      rw [hm]; simp [dotProduct, Fin.sum_univ_three]; linarith
    rw [this]; positivity
  have hn : n = normalized m := rfl
  obtain ⟨c, hc, h1, h2⟩ := normalized_pos hmm
  have hnc : n = c • m := h1
  have hder : HasDerivAt (fun y => Real.tanh y + 1) (s * s) (X 1) := by
    have hd := ((Real.hasDerivAt_sinh (X 1)).fun_div (Real.hasDerivAt_cosh (X 1)) hcosh.ne').add_const 1
    have e : (fun y => Real.tanh y + 1) = fun y => Real.sinh y / Real.cosh y + 1 := by
      funext y; rw [Real.tanh_eq_sinh_div_cosh]
    rw [e]
    refine hd.congr_deriv ?_
    rw [hs]
    have hid := Real.cosh_sq (X 1)
    field_simp
    rw [hid]; ring
  refine ⟨h2, ?_, ⟨s * s, hder, ?_⟩, ?_⟩
  · rw [hnc, smul_dotProduct, hm]
    have : (![-Real.cos θ, s * s, -Real.sin θ] : Fin 3 → ℝ) ⬝ᵥ ![-X 2, 0, X 0] = 0 := by
      simp [dotProduct, Fin.sum_univ_three]
      rw [← hcs.1, ← hcs.2]; ring
    rw [this, smul_zero]
  · rw [hnc, smul_dotProduct, hm]
    have : (![-Real.cos θ, s * s, -Real.sin θ] : Fin 3 → ℝ) ⬝ᵥ ![s * s * X 0, r, s * s * X 2] = 0 := by
      simp [dotProduct, Fin.sum_univ_three]
      rw [← hcs.1, ← hcs.2]
      linear_combination (-(s * s * r)) * hpyth
    rw [this, smul_zero]
  · intro hcut hsurf
    -- squared profile minus squared radius along the ray
    have hn0 : n 0 = c * -Real.cos θ := by rw [hnc, hm]; simp
    have hn1 : n 1 = c * (s * s) := by rw [hnc, hm]; simp
    have hn2 : n 2 = c * -Real.sin θ := by rw [hnc, hm]; simp
    have hline : ∀ a, HasDerivAt (fun t : ℝ => X a + t * n a) (n a) 0 := fun a => by
      simpa using ((hasDerivAt_id (0 : ℝ)).mul_const (n a)).const_add (X a)
    have hprof : HasDerivAt (fun t : ℝ => Real.tanh (X 1 + t * n 1) + 1) (s * s * n 1) 0 := by
      have h0 : X 1 + 0 * n 1 = X 1 := by ring
      exact HasDerivAt.comp (h₂ := fun y => Real.tanh y + 1) (0 : ℝ) (by rw [h0]; exact hder) (hline 1)
    have hφ := (hprof.mul hprof).sub (((hline 0).mul (hline 0)).add ((hline 2).mul (hline 2)))
    have hrpos : 0 < r := by
      rw [hsurf]
      have : -1 < Real.tanh (X 1) := by
        rw [Real.tanh_eq_sinh_div_cosh, lt_div_iff₀ hcosh]
        have := Real.cosh_add_sinh (X 1)
        have := Real.exp_pos (X 1)
        linarith
      linarith
    have hval : s * s * n 1 * (Real.tanh (X 1 + 0 * n 1) + 1) +
        (Real.tanh (X 1 + 0 * n 1) + 1) * (s * s * n 1) -
        (n 0 * (X 0 + 0 * n 0) + (X 0 + 0 * n 0) * n 0 +
          (n 2 * (X 2 + 0 * n 2) + (X 2 + 0 * n 2) * n 2)) = 2 * c * r * (s * s * (s * s) + 1) := by
      simp only [zero_mul, add_zero, ← hsurf, hn0, hn1, hn2]
      rw [← hcs.1, ← hcs.2]
      linear_combination (2 * c * r) * hpyth
    rw [hval] at hφ
    have hpos : 0 < 2 * c * r * (s * s * (s * s) + 1) := by positivity
    obtain ⟨e1, e2⟩ := eventually_pos_of_deriv hφ (by
      simp only [Pi.sub_apply, Pi.mul_apply, Pi.add_apply, zero_mul, add_zero]
      rw [← hsurf, hrsq, sub_self]) hpos
    constructor
    · filter_upwards [e1] with t ht hin
      apply hin.2
      simp only [Pi.sub_apply, Pi.mul_apply, Pi.add_apply] at ht
      simp only [Pi.add_apply, Pi.smul_apply, smul_eq_mul]
      linarith
    · have hcont : ∀ᶠ t in 𝓝[>] (0 : ℝ), cut < X 1 + -t * n 1 := by
        have : Tendsto (fun t : ℝ => X 1 + -t * n 1) (𝓝 0) (𝓝 (X 1 + -0 * n 1)) :=
          (Continuous.tendsto (by fun_prop) 0)
        rw [neg_zero, zero_mul, add_zero] at this
        exact (this.mono_left nhdsWithin_le_nhds).eventually_const_lt hcut
      filter_upwards [e2, hcont] with t ht ht2
      simp only [Pi.sub_apply, Pi.mul_apply, Pi.add_apply] at ht
      have hx : ∀ a, (X - t • n) a = X a + -t * n a := by
        intro a; simp [sub_eq_add_neg]
      refine ⟨?_, ?_⟩
      · rw [hx]; linarith
      · rw [hx, hx, hx]; linarith

end Verif.Props
