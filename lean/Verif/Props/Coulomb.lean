import Verif.Props.WallMomentum
import Verif.Props.FreeFall
import Verif.Props.Walls

set_option linter.unusedSectionVars false
set_option linter.unusedSimpArgs false
set_option linter.unusedVariables false

/-!
# C72, C73: centre of mass and Coulomb's law for whole runs
-/

namespace Verif.Props
open Verif Matrix

section step
variable {K : Type*} [Field K] [LinearOrder K] [IsStrictOrderedRing K] [FloorRing K] {d : ℕ}

/-- Sum of the positions of the particles, times their mass. -/
def firstMoment (m : K) (ps : List (Particle d K)) : Fin d → K := (ps.map fun p => m • p.x).sum

variable {deg : Deg} {dx fr m vol : K} {mibf : Bool} {g : Axes (d + 2) K} {S : StepParams (d + 2) K}
  {ps : List (Particle (d + 2) K)} {dt : K} {grav : Fin (d + 2) → K}
  {bc : ℕ → (Fin (d + 2) → K) → (Fin (d + 2) → K) → (Fin (d + 2) → K)}
  {plast : Particle (d + 2) K → Particle (d + 2) K} {threads : List (List (Particle (d + 2) K))}

/-- **C72** The centre of mass moves with the momentum: a step displaces it by `dt` times the new total momentum over
the total mass, although the particles are moved with interpolated, not with their own velocities. For every boundary
treatment, `flip_ratio`, stress and constitutive update, with or without MUSL. -/
theorem C72_step (hS : S.P = mkTransferParams deg dx fr mibf m vol) (hd : deg ≠ .one) (hm : 0 < m)
    (hpbc : S.pbc = false) (hcp : S.changePos = false)
    (h : GoodGrid dx g ps) (hn : NoTinyWeights deg dx g ps) (ht : threads.flatten.Perm ps) (hk : KeepsMotion plast) :
    ∃ qs, stepOnGrid S dt grav bc plast g [] threads ps = some qs ∧
      firstMoment m qs = firstMoment m ps + dt • momentum m qs := by
  have hP : S.P.deg = deg := by rw [hS]; rfl
  have hP1 : S.P.oneOverDx = 1 / dx := by rw [hS]; rfl
  obtain ⟨F, hF, hF2⟩ := stepOnGrid_eq (S := S) (dt := dt) (grav := grav) (bc := bc) hP hP1 h ht hk
  refine ⟨_, hF, ?_⟩
  have hs := wall_sums (S := S) (dt := dt) (grav := grav) (bc := bc) hS hd hm h hn
  have hb := blend_momentum (P := S.P) (n := g.size) (e := stepEuler S deg dx dt grav bc g ps) (F := F)
    (st := fun p => stencilOf deg dx g p.x) (fun p hp => (hF2 p hp).1) hs.1 hs.2
  rw [hb]
  have e1 : momentum m ps = m • (ps.map fun p => p.v).sum := by simp only [momentum]; rw [sum_map_smul]
  rw [e1, ← hs.1]
  simp only [firstMoment, List.map_map]
  have hx : ∀ p ∈ ps, ((fun q : Particle (d + 2) K => m • q.x) ∘ F) p =
      m • p.x + (dt * m) • interpV g.size (stepEuler S deg dx dt grav bc g ps).v (stencilOf deg dx g p.x) := by
    intro p hp
    obtain ⟨-, -, -, hx, -⟩ := hF2 p hp
    simp only [Function.comp]
    rw [hx]
    simp only [positionParticle, hpbc, hcp, Bool.false_eq_true, if_false, g2pTransfer]
    rw [smul_add, smul_smul, mul_comm]
  rw [List.map_congr_left hx, sum_map_add', sum_map_smul ps (dt * m), smul_smul]

end step

/-! ### which walls can push in which direction -/

section walls
variable {d : ℕ}

/-- The wall pushes only in directions with a non-negative component along `a`. -/
def PlateFavours (ops : PlateOps d) (a : Fin d → ℝ) (p : Plate d) : Prop :=
  ∀ r, a ⬝ᵥ r ≤ a ⬝ᵥ ops.rel p.type p.bc p.friction r

def ObjectFavours (a : Fin d → ℝ) (o : GenObject d) : Prop :=
  ∀ X v, a ⬝ᵥ v ≤ a ⬝ᵥ objectRel o.bc o.friction (o.normal X) v

lemma collision_favours {ops : PlateOps d} {gf : ℕ → ℝ} {dt : ℝ} {objs : List (GenObject d)} {plates : List (Plate d)}
    {a : Fin d → ℝ} (h1 : ∀ o ∈ objs, ObjectFavours a o) (h2 : ∀ p ∈ plates, PlateFavours ops a p) (l : ℕ)
    (X v : Fin d → ℝ) : a ⬝ᵥ v ≤ a ⬝ᵥ boundaryCollision ops false gf dt objs plates l X v := by
  simp only [boundaryCollision, wallFriction, Bool.false_eq_true, if_false]
  generalize X + dt • v = Y
  have e1 : ∀ w : Fin d → ℝ, a ⬝ᵥ w ≤ a ⬝ᵥ collideObjects (fun own => own) Y objs w := by
    intro w
    induction objs generalizing w with
    | nil => exact le_rfl
    | cons o os ih =>
      refine le_trans ?_ (ih (fun o ho => h1 o (List.mem_cons_of_mem _ ho)) _)
      beta_reduce
      split_ifs
      · exact h1 o List.mem_cons_self _ _
      · exact le_rfl
  have e2 : ∀ w : Fin d → ℝ, a ⬝ᵥ w ≤ a ⬝ᵥ collidePlates ops.inside ops.rel (fun own => own) Y plates w := by
    intro w
    induction plates generalizing w with
    | nil => exact le_rfl
    | cons p os ih =>
      refine le_trans ?_ (ih (fun o ho => h2 o (List.mem_cons_of_mem _ ho)) _)
      beta_reduce
      split_ifs
      · have := h2 p List.mem_cons_self (w - p.vel)
        rw [dotProduct_sub] at this
        rw [dotProduct_add]
        linarith
      · exact le_rfl
  exact (e1 _).trans (e2 _)

/-- A one-sided wall normal to axis `b` whose open side is in direction `σ`, with a friction coefficient of at most
`κ`. -/
def CoulombPlate (σ κ : ℝ) (b : Fin d) (p : Plate d) : Prop :=
  p.bc = .slipFree ∧ normalAxis p.type = b ∧ openSide p.type = σ ∧ 0 ≤ p.friction ∧ p.friction ≤ κ

/-- A frictionless wall neither normal to `b` nor to the direction `e`. -/
def SmoothPlate (b : Fin d) (e : Fin d → ℝ) (p : Plate d) : Prop :=
  p.bc ≠ .noSlip ∧ p.friction = 0 ∧ ∀ k : Fin d, normalAxis p.type = k → k ≠ b ∧ e k = 0

/-- The same for objects: flat floors with friction. -/
def CoulombObject (σ κ : ℝ) (b : Fin d) (o : GenObject d) : Prop :=
  o.bc = .slipFree ∧ (∀ X, o.normal X = Pi.single b σ) ∧ 0 ≤ o.friction ∧ o.friction ≤ κ

lemma slide2_change {μ t n e : ℝ} (hμ : 0 ≤ μ) (he : e * e ≤ 1) : -(μ * |n|) ≤ e * (slide2 μ t n - t) := by
  have hn := mul_nonneg hμ (abs_nonneg n)
  have he' : |e| ≤ 1 := by rw [← abs_one (α := ℝ)]; exact sq_le_sq.mp (by nlinarith)
  have hs : |slide2 μ t n - t| ≤ μ * |n| := by
    unfold slide2
    split_ifs with h0 h1 h2
    · simpa using hn
    · rw [zero_sub, abs_neg]; exact h1.le
    · rw [sub_sub_cancel_left, abs_neg, abs_of_nonneg hn]
    · rw [add_sub_cancel_left, abs_of_nonneg hn]
  have := mul_le_mul he' hs (abs_nonneg _) zero_le_one
  rw [one_mul, ← abs_mul] at this
  exact (abs_le.mp this).1

lemma slide3_change {μ t₁ t₂ n e₁ e₂ : ℝ} (hμ : 0 ≤ μ) (he : e₁ * e₁ + e₂ * e₂ ≤ 1) :
    -(μ * |n|) ≤ e₁ * ((slide3 μ t₁ t₂ n).1 - t₁) + e₂ * ((slide3 μ t₁ t₂ n).2 - t₂) := by
  obtain ⟨h0, h1, h2, c₂, h3, h4, h5, -, -⟩ := slide3_spec (t₁ := t₁) (t₂ := t₂) (n := n) hμ
  set V := Real.sqrt (t₁ * t₁ + t₂ * t₂) with hV
  set c := coulombFactor μ n V with hc
  have hn := mul_nonneg hμ (abs_nonneg n)
  have hV0 : 0 ≤ V := Real.sqrt_nonneg _
  have hVV : V * V = t₁ * t₁ + t₂ * t₂ :=
    Real.mul_self_sqrt (add_nonneg (mul_self_nonneg _) (mul_self_nonneg _))
  have hcV : (1 - c) * V ≤ μ * |n| := by
    rw [hc, coulombFactor]
    split_ifs with h
    · linarith
    · push Not at h
      have : 0 < V := lt_of_le_of_lt hn h
      rw [sub_sub_cancel, div_mul_cancel₀ _ this.ne']
  have hcs : |e₁ * t₁| + |e₂ * t₂| ≤ V := by
    refine abs_le_of_sq_le_sq' ?_ hV0 |>.2
    have a1 := sq_abs (e₁ * t₁)
    have a2 := sq_abs (e₂ * t₂)
    have a3 : |e₁ * t₁| * |e₂ * t₂| = |e₁ * t₂| * |e₂ * t₁| := by simp only [abs_mul]; ring
    have a4 := sq_abs (e₁ * t₂)
    have a5 := sq_abs (e₂ * t₁)
    have a6 := mul_le_mul_of_nonneg_right he (mul_self_nonneg V)
    nlinarith [sq_nonneg (|e₁ * t₂| - |e₂ * t₁|), a6, hVV]
  rw [h2, h5]
  have b1 : (1 - c) * |e₁ * t₁| + (1 - c₂) * |e₂ * t₂| ≤ (1 - c) * (|e₁ * t₁| + |e₂ * t₂|) := by
    nlinarith [abs_nonneg (e₂ * t₂)]
  have b2 := mul_le_mul_of_nonneg_left hcs (sub_nonneg.mpr h1)
  have b3 := mul_le_mul_of_nonneg_left (le_abs_self (e₁ * t₁)) (sub_nonneg.mpr h1)
  have b4 := mul_le_mul_of_nonneg_left (le_abs_self (e₂ * t₂)) (sub_nonneg.mpr h4)
  nlinarith

/-- What is needed of the plates for Coulomb's law; holds in 2D and 3D. -/
structure CoulombOps {d : ℕ} (ops : PlateOps d) : Prop where
  coulomb : ∀ (p : Plate d) σ κ b e, e b = 0 → e ⬝ᵥ e ≤ 1 → CoulombPlate σ κ b p →
    PlateFavours ops (Pi.single b (κ * σ) + e) p
  smooth : ∀ (p : Plate d) b e, SmoothPlate b e p → ∀ x, PlateFavours ops (Pi.single b x + e) p
  move : ∀ p dt f t, (ops.move p dt f t).type = p.type ∧ (ops.move p dt f t).bc = p.bc ∧
    (ops.move p dt f t).friction = p.friction

lemma coulomb2 : CoulombOps plateOps2 where
  coulomb := by
    rintro ⟨pos, type, bc, fr, lo, up, vel, vo, vm, lf⟩ σ κ b e heb hee ⟨h1, h2, h3, h4, h5⟩ r
    simp only at h1 h2 h3 h4 h5
    subst h1 h3
    simp only [plateOps2, dotProduct, Fin.sum_univ_two] at hee ⊢
    have hf := fun n : ℝ => mul_le_mul_of_nonneg_right h5 (abs_nonneg n)
    fin_cases b
    · have hx := fun t n => slide2_change (μ := fr) (t := t) (n := n) (e := e 1) h4 (by simp at heb; nlinarith)
      cases type <;> simp_all [plateRel2, normalAxis, openSide] <;> split_ifs with h <;> simp <;>
      · have h6 := hx (r 1) (r 0)
        have h7 := hf (r 0)
        first | rw [abs_of_neg h] at h6 h7 | rw [abs_of_pos h] at h6 h7
        nlinarith
    · have hx := fun t n => slide2_change (μ := fr) (t := t) (n := n) (e := e 0) h4 (by simp at heb; nlinarith)
      cases type <;> simp_all [plateRel2, normalAxis, openSide] <;> split_ifs with h <;> simp <;>
      · have h6 := hx (r 0) (r 1)
        have h7 := hf (r 1)
        first | rw [abs_of_neg h] at h6 h7 | rw [abs_of_pos h] at h6 h7
        nlinarith
  smooth := by
    rintro ⟨pos, type, bc, fr, lo, up, vel, vo, vm, lf⟩ b e ⟨h1, h2, h3⟩ x r
    simp only at h1 h2 h3
    subst h2
    simp only [plateOps2, dotProduct, Fin.sum_univ_two]
    fin_cases b <;> cases type <;> cases bc <;>
      simp_all [plateRel2, normalAxis, slide2_zero, Fin.forall_fin_two] <;> split_ifs <;> simp_all
  move := fair2.move

lemma coulomb3 : CoulombOps plateOps3 where
  coulomb := by
    rintro ⟨pos, type, bc, fr, lo, up, vel, vo, vm, lf⟩ σ κ b e heb hee ⟨h1, h2, h3, h4, h5⟩ r
    simp only at h1 h2 h3 h4 h5
    subst h1 h3
    simp only [plateOps3, dotProduct, Fin.sum_univ_three] at hee ⊢
    have hf := fun n : ℝ => mul_le_mul_of_nonneg_right h5 (abs_nonneg n)
    fin_cases b
    · have hx := fun t₁ t₂ n => slide3_change (μ := fr) (t₁ := t₁) (t₂ := t₂) (n := n) (e₁ := e 1) (e₂ := e 2) h4
        (by simp at heb; nlinarith)
      cases type <;> simp_all [plateRel3, normalAxis, openSide] <;> split_ifs with h <;> simp <;>
      · have h6 := hx (r 1) (r 2) (r 0)
        have h7 := hf (r 0)
        first | rw [abs_of_neg h] at h6 h7 | rw [abs_of_pos h] at h6 h7
        nlinarith
    · have hx := fun t₁ t₂ n => slide3_change (μ := fr) (t₁ := t₁) (t₂ := t₂) (n := n) (e₁ := e 0) (e₂ := e 2) h4
        (by simp at heb; nlinarith)
      cases type <;> simp_all [plateRel3, normalAxis, openSide] <;> split_ifs with h <;> simp <;>
      · have h6 := hx (r 0) (r 2) (r 1)
        have h7 := hf (r 1)
        first | rw [abs_of_neg h] at h6 h7 | rw [abs_of_pos h] at h6 h7
        nlinarith
    · have hx := fun t₁ t₂ n => slide3_change (μ := fr) (t₁ := t₁) (t₂ := t₂) (n := n) (e₁ := e 0) (e₂ := e 1) h4
        (by simp at heb; nlinarith)
      cases type <;> simp_all [plateRel3, normalAxis, openSide] <;> split_ifs with h <;> simp <;>
      · have h6 := hx (r 0) (r 1) (r 2)
        have h7 := hf (r 2)
        first | rw [abs_of_neg h] at h6 h7 | rw [abs_of_pos h] at h6 h7
        nlinarith
  smooth := by
    rintro ⟨pos, type, bc, fr, lo, up, vel, vo, vm, lf⟩ b e ⟨h1, h2, h3⟩ x r
    simp only at h1 h2 h3
    subst h2
    simp only [plateOps3, dotProduct, Fin.sum_univ_three]
    fin_cases b <;> cases type <;> cases bc <;>
      simp_all [plateRel3, normalAxis, slide3_zero, Fin.forall_fin_succ] <;> split_ifs <;> simp_all
  move := fair3.move

lemma self_nonneg (y : Fin d → ℝ) : 0 ≤ y ⬝ᵥ y := Finset.sum_nonneg fun i _ => mul_self_nonneg _

lemma coulombObject_favours {σ κ : ℝ} {b : Fin d} {e : Fin d → ℝ} (hσ : σ * σ = 1) (hb : e b = 0) (he : e ⬝ᵥ e ≤ 1)
    {o : GenObject d} (h : CoulombObject σ κ b o) : ObjectFavours (Pi.single b (κ * σ) + e) o := by
  obtain ⟨h1, h2, h3, h4⟩ := h
  intro X v
  rw [h1, h2]
  have hn : v ⬝ᵥ Pi.single b σ = v b * σ := dotProduct_single ..
  have en : e ⬝ᵥ Pi.single b σ = 0 := by rw [dotProduct_single, hb, zero_mul]
  simp only [objectRel, hn]
  set vt := v - (v b * σ) • Pi.single (M := fun _ => ℝ) b σ with hvt
  have hvb : vt b = 0 := by rw [hvt]; simp [mul_assoc, hσ]
  have hev : e ⬝ᵥ vt = e ⬝ᵥ v := by rw [hvt, dotProduct_sub, dotProduct_smul, en]; simp
  have hL : ∀ y : Fin d → ℝ, (Pi.single b (κ * σ) + e) ⬝ᵥ y = κ * σ * y b + e ⬝ᵥ y := by
    intro y; rw [add_dotProduct, single_dotProduct]
  have hcs : ∀ y : Fin d → ℝ, |e ⬝ᵥ y| ≤ vnorm y := by
    intro y
    refine abs_le_of_sq_le_sq ?_ (Real.sqrt_nonneg _)
    have := Finset.sum_mul_sq_le_sq_mul_sq Finset.univ e y
    rw [vnorm, Real.sq_sqrt (self_nonneg y)]
    have a1 : ∑ i, e i ^ 2 = e ⬝ᵥ e := by simp [dotProduct, sq]
    have a2 : ∑ i, y i ^ 2 = y ⬝ᵥ y := by simp [dotProduct, sq]
    rw [a1, a2] at this
    have h5 := self_nonneg y
    calc (e ⬝ᵥ y) ^ 2 ≤ (e ⬝ᵥ e) * (y ⬝ᵥ y) := this
      _ ≤ _ := by nlinarith
  rw [hL, hL]
  split_ifs with g1 g2 g3
  · -- sliding
    have hlen : 0 < vnorm vt := lt_of_le_of_lt (mul_nonneg (by linarith) h3) g3
    have hpos : vt ⬝ᵥ vt > 0 := by
      by_contra hc
      rw [vnorm, Real.sqrt_eq_zero_of_nonpos (not_lt.mp hc)] at hlen
      exact lt_irrefl _ hlen
    rw [normalized, if_pos hpos]
    have a1 : (vt + (v b * σ * o.friction) • (1 / Real.sqrt (vt ⬝ᵥ vt)) • vt) b = 0 := by simp [hvb]
    rw [a1, dotProduct_add, hev, dotProduct_smul, dotProduct_smul, hev, smul_eq_mul, smul_eq_mul]
    have h6 := hcs vt
    rw [hev, abs_le] at h6
    have h7 : 1 / Real.sqrt (vt ⬝ᵥ vt) * (e ⬝ᵥ v) ≤ 1 := by
      change 1 / vnorm vt * (e ⬝ᵥ v) ≤ 1
      rw [one_div, inv_mul_le_iff₀ hlen]
      linarith [h6.2]
    have h8 := mul_le_mul_of_nonneg_left h7 (mul_nonneg (neg_nonneg.mpr g1.le) h3)
    nlinarith [mul_nonneg (neg_nonneg.mpr g1.le) (sub_nonneg.mpr h4)]
  · -- stuck
    push Not at g3
    simp only [Pi.zero_apply, mul_zero, dotProduct_zero, add_zero]
    have h6 := hcs vt
    rw [hev, abs_le] at h6
    nlinarith [mul_nonneg (neg_nonneg.mpr g1.le) (sub_nonneg.mpr h4)]
  · rw [hvb, hev]
    have : o.friction = 0 := le_antisymm (not_lt.mp g2) h3
    nlinarith [mul_nonneg (neg_nonneg.mpr g1.le) (h3.trans h4)]
  · exact le_rfl

end walls

/-! ### whole runs -/

section run
variable {d : ℕ} {R : Setup (d + 2)} {i e : Bool} {fuel : ℕ} {s : LoopState (d + 2) (World (d + 2))}

/-- In no step of the run the walls push a node against direction `a`. `u` is the velocity the node would have
without walls. -/
def Directed (R : Setup (d + 2)) (s : LoopState (d + 2) (World (d + 2))) (deg : Deg) (dx fr m vol : ℝ)
    (a : Fin (d + 2) → ℝ) : Prop :=
  ∀ s1 dt g w, StepOf R s s1 dt g w → ∀ i, IsNode w.g i → ∀ u, 0 < massAt deg dx m s1.w.ps (nodeAt w.g i) →
    massAt deg dx m s1.w.ps (nodeAt w.g i) • u =
      freeMomentum deg dx fr R.S.P.apicDinverse m vol dt g s1.w.ps (nodeAt w.g i) →
    ∀ gf l, a ⬝ᵥ u ≤ a ⬝ᵥ boundaryCollision R.ops R.S.P.useMibf gf dt R.objs s1.w.plates l (nodeAt w.g i) u

/-- Momentum and centre of mass along every direction against which the walls do not push. -/
lemma directed_run {deg : Deg} {dx fr m vol : ℝ} {mibf : Bool}
    (hS : R.S.P = mkTransferParams deg dx fr mibf m vol) (hd : deg ≠ .one) (hdx : 0 < dx) (hm : 0 < m)
    (hpbc : R.S.pbc = false) (hcp : R.S.changePos = false)
    (hsched : ∀ k ps, (R.sched k ps).flatten.Perm ps) (hmin : 0 ≤ R.C.minDt)
    (hn : ∀ s1 dt g w, StepOf R s s1 dt g w → NoTinyWeights deg dx w.g s1.w.ps)
    {n : ℕ} {t : ℝ} {w : World (d + 2)}
    (hev : .particles n t w ∈ filesOf (runProgram R i e fuel s)) (hnew : .particles n t w ∉ s.out) :
    ∃ c u, 0 ≤ c ∧ c ≤ t ∧ 0 ≤ u ∧
      (R.C.gravitySpecial = false → c = t ∧ t ^ 2 / 2 ≤ u ∧ u ≤ t ^ 2 / 2 + t * max R.C.dtMax R.C.minDt / 2) ∧
      ∀ a, Directed R s deg dx fr m vol a →
        a ⬝ᵥ (momentum m s.w.ps + (c * (s.w.ps.length * m)) • s.gravity) ≤ a ⬝ᵥ momentum m w.ps ∧
        a ⬝ᵥ (firstMoment m s.w.ps + t • momentum m s.w.ps + (u * (s.w.ps.length * m)) • s.gravity) ≤
          a ⬝ᵥ firstMoment m w.ps := by
  have hbeg : (begin R s).w.ps.length = s.w.ps.length ∧
      momentum m (begin R s).w.ps = momentum m s.w.ps ∧ firstMoment m (begin R s).w.ps = firstMoment m s.w.ps := by
    rw [begin_w]
    unfold fillMuI
    by_cases hmi : R.S.P.useMibf = true
    · rw [if_pos hmi]
      refine ⟨by simp, ?_, ?_⟩
      · simp only [momentum, List.map_map]; rfl
      · simp only [firstMoment, List.map_map]; rfl
    · rw [if_neg hmi]
      exact ⟨rfl, rfl, rfl⟩
  let Inv : World (d + 2) → ℝ → ℕ → (Fin (d + 2) → ℝ) → Prop := fun w t _ g =>
    (R.C.gravitySpecial = false → g = s.gravity) ∧ w.ps.length = s.w.ps.length ∧ 0 ≤ t ∧
    ∃ c u, 0 ≤ c ∧ c ≤ t ∧ 0 ≤ u ∧
      (R.C.gravitySpecial = false → c = t ∧ t ^ 2 / 2 ≤ u ∧ u ≤ t ^ 2 / 2 + t * max R.C.dtMax R.C.minDt / 2) ∧
      ∀ a, Directed R s deg dx fr m vol a →
        a ⬝ᵥ (momentum m s.w.ps + (c * (s.w.ps.length * m)) • s.gravity) ≤ a ⬝ᵥ momentum m w.ps ∧
        a ⬝ᵥ (firstMoment m s.w.ps + t • momentum m s.w.ps + (u * (s.w.ps.length * m)) • s.gravity) ≤
          a ⬝ᵥ firstMoment m w.ps
  have h0 : Inv (begin R s).w 0 s.step s.gravity :=
    ⟨fun _ => rfl, hbeg.1, le_rfl, 0, 0, le_rfl, le_rfl, le_rfl, fun _ => ⟨rfl, by simp, by simp⟩, fun a _ => by
      rw [hbeg.2.1, hbeg.2.2]; simp⟩
  have hPdx : R.S.P.dx = dx := by rw [hS]; rfl
  have hstep : ∀ s1 dt g w, StepOf R s s1 dt g w → Inv s1.w s1.time s1.step s1.gravity →
      Inv w (s1.time + dt) (s1.step + 1) g := by
    rintro s1 dt g w hst ⟨i2, i3, i4, c, u, c0, ct, u0, cs, i5⟩
    have hgood := physStep_goodGrid hpbc (by rw [hPdx]; exact hdx) (by rw [hS]; rfl) hst.phys
    rw [hPdx] at hgood
    have hdt0 : 0 ≤ dt := hmin.trans hst.dt_ge.1
    have hdt1 := hst.dt_le
    obtain ⟨fr', ha⟩ := physStep_advance hst.phys
    simp only [advanceStep, hpbc, Bool.false_eq_true, if_false, List.append_nil, Option.bind_eq_bind,
      Option.bind_eq_some_iff] at ha
    obtain ⟨bg, hbg, qs, hqs, hσ⟩ := ha
    injection hσ with hσ
    injection hσ with hps _ hgg _
    obtain ⟨qs', v, h1, h2, hv, h3⟩ := C69_step (S := R.S) (dt := dt) (grav := g)
      (bc := boundaryCollision R.ops R.S.P.useMibf fr' dt R.objs s1.w.plates)
      (plast := plastTotal R dt) (threads := R.sched s1.step s1.w.ps) hS hd hm
      hgood (hn _ _ _ _ hst) (hsched _ _) (plastTotal_keeps R dt)
    obtain ⟨qs2, k1, k2⟩ := C72_step (S := R.S) (dt := dt) (grav := g)
      (bc := boundaryCollision R.ops R.S.P.useMibf fr' dt R.objs s1.w.plates)
      (plast := plastTotal R dt) (threads := R.sched s1.step s1.w.ps) hS hd hm hpbc hcp
      hgood (hn _ _ _ _ hst) (hsched _ _) (plastTotal_keeps R dt)
    obtain rfl := Option.some.inj (h1.symm.trans k1)
    rw [← hgg, hqs] at h1
    have hw : w.ps = qs' := by rw [← hps]; exact Option.some.inj h1
    obtain ⟨f, f0, f1, fs, hf⟩ := hst.gravity i4 i2
    have hfd := mul_le_mul_of_nonneg_right f1 hdt0
    have hMnn : ∀ X, 0 ≤ massAt deg dx m s1.w.ps X := fun X => by
      refine mul_nonneg hm.le (List.sum_nonneg ?_)
      simp only [List.mem_map, List.mem_filter]
      rintro _ ⟨p, ⟨-, hp⟩, rfl⟩
      exact le_trans (by positivity) (of_decide_eq_true hp).le
    refine ⟨fun hsp => by rw [hf, fs hsp, one_smul], by rw [hw]; exact h2.trans i3, by linarith, c + dt * f,
      u + dt * (c + dt * f), by positivity, by linarith, by positivity, fun hsp => ?_, fun a hdir => ?_⟩
    · obtain ⟨a1, a2, a3⟩ := cs hsp
      rw [fs hsp, a1]
      refine ⟨by ring, by nlinarith, ?_⟩
      have := mul_le_mul_of_nonneg_left hdt1 hdt0
      nlinarith
    · obtain ⟨j1, j2⟩ := i5 a hdir
      have hmom : a ⬝ᵥ (momentum m s.w.ps + ((c + dt * f) * (s.w.ps.length * m)) • s.gravity) ≤
          a ⬝ᵥ momentum m qs' := by
        have hsum : 0 ≤ a ⬝ᵥ ∑ i ∈ gridIndices w.g, massAt deg dx m s1.w.ps (nodeAt w.g i) •
            (boundaryCollision R.ops R.S.P.useMibf fr' dt R.objs s1.w.plates (flatIndex w.g.size i) (nodeAt w.g i) (v i)
              - v i) := by
          rw [dotProduct_sum]
          refine Finset.sum_nonneg fun j hj => ?_
          rw [dotProduct_smul, smul_eq_mul]
          rcases (hMnn (nodeAt w.g j)).eq_or_lt with hz | hz
          · rw [← hz, zero_mul]
          · refine mul_nonneg hz.le ?_
            rw [dotProduct_sub]
            exact sub_nonneg.mpr (hdir s1 dt g w hst j (mem_gridIndices.mp hj) _ hz (hv j (mem_gridIndices.mp hj)) _ _)
        rw [h3, dotProduct_add a (_ + _), dotProduct_add a (momentum m s1.w.ps), i3, hf, smul_smul]
        rw [dotProduct_add, dotProduct_smul] at j1 ⊢
        rw [dotProduct_smul]
        simp only [smul_eq_mul] at j1 ⊢
        nlinarith [hsum, j1]
      rw [hw]
      refine ⟨hmom, ?_⟩
      rw [k2, dotProduct_add a (firstMoment m s1.w.ps), dotProduct_smul]
      rw [dotProduct_add, dotProduct_smul] at hmom
      rw [dotProduct_add, dotProduct_add, dotProduct_smul, dotProduct_smul] at j2 ⊢
      simp only [smul_eq_mul] at j2 hmom ⊢
      have := mul_le_mul_of_nonneg_left hmom hdt0
      nlinarith
  rcases run_particles hev hnew with ⟨rfl, rfl, rfl⟩ | ⟨s1, dt, g, hst, rfl⟩
  · obtain ⟨-, -, -, h⟩ := h0
    exact h
  · obtain ⟨-, -, -, h⟩ := (run_inv (Inv := Inv) h0 hstep hst).2
    exact h

/-- What the motion of the plates does not change stays as it is. -/
lemma run_plates {Q : Plate (d + 2) → Prop} (hmove : ∀ p dt t, Q p → Q (R.ops.move p dt R.C.frameDt t))
    (h : ∀ p ∈ s.w.plates, Q p) {s1 : LoopState (d + 2) (World (d + 2))} {dt : ℝ} {g : Fin (d + 2) → ℝ}
    {w : World (d + 2)} (hst : StepOf R s s1 dt g w) : ∀ p ∈ s1.w.plates, Q p := by
  have hbeg : (begin R s).w.plates = s.w.plates := by
    rw [begin_w]; unfold fillMuI; split_ifs <;> rfl
  refine (run_inv (Inv := fun w _ _ _ => ∀ p ∈ w.plates, Q p) (by rw [hbeg]; exact h) ?_ hst).1
  intro s1 dt g w hst hQ p hp
  rw [physStep_plates hst.phys, List.mem_map] at hp
  obtain ⟨q, hq, rfl⟩ := hp
  exact hmove q _ _ (hQ q hq)

/-- **C72** The centre of mass in the files of a run. Without walls, or along an axis `b` along which the walls
(frictionless, not normal to `b`) do not act, momentum and centre of mass of the body are those of a point mass,
whatever happens inside of the body. If walls normal to `b` are one-sided and behind the material (`σ = 1`: floors),
they are bounded by it. `c`, `u` are the effective time and displacement factors of gravity. -/
theorem C72_run {deg : Deg} {dx fr m vol : ℝ} {mibf : Bool}
    (hS : R.S.P = mkTransferParams deg dx fr mibf m vol) (hd : deg ≠ .one) (hdx : 0 < dx) (hm : 0 < m)
    (hpbc : R.S.pbc = false) (hcp : R.S.changePos = false) (hops : FairOps R.ops)
    (hsched : ∀ k ps, (R.sched k ps).flatten.Perm ps) (hmin : 0 ≤ R.C.minDt)
    (hn : ∀ s1 dt g w, StepOf R s s1 dt g w → NoTinyWeights deg dx w.g s1.w.ps)
    (hwall : mibf = false ∨ R.objs = [] ∧ s.w.plates = [])
    {n : ℕ} {t : ℝ} {w : World (d + 2)}
    (hev : .particles n t w ∈ filesOf (runProgram R i e fuel s)) (hnew : .particles n t w ∉ s.out) :
    ∃ c u, 0 ≤ c ∧ c ≤ t ∧ 0 ≤ u ∧
      (R.C.gravitySpecial = false → c = t ∧ t ^ 2 / 2 ≤ u ∧ u ≤ t ^ 2 / 2 + t * max R.C.dtMax R.C.minDt / 2) ∧
      (∀ b, (∀ o ∈ R.objs, ObjectBeside b o) → (∀ p ∈ s.w.plates, PlateBeside b p) →
        momentum m w.ps b = momentum m s.w.ps b + c * (s.w.ps.length * m) * s.gravity b ∧
        firstMoment m w.ps b = firstMoment m s.w.ps b + t * momentum m s.w.ps b +
          u * (s.w.ps.length * m) * s.gravity b) ∧
      (∀ b σ, (∀ o ∈ R.objs, ObjectBehind σ b o) → (∀ p ∈ s.w.plates, PlateBeside b p ∨ PlateBehind σ b p) →
        σ * (firstMoment m s.w.ps b + t * momentum m s.w.ps b + u * (s.w.ps.length * m) * s.gravity b) ≤
          σ * firstMoment m w.ps b) := by
  have hmib : R.S.P.useMibf = mibf := by rw [hS]; rfl
  obtain ⟨c, u, h1, h2, h3, h4, h5⟩ := directed_run hS hd hdx hm hpbc hcp hsched hmin hn hev hnew
  have hempty : s.w.plates = [] → ∀ {s1 dt g w}, StepOf R s s1 dt g w → s1.w.plates = [] := by
    intro h s1 dt g w hst
    have := run_plates (Q := fun _ => False) (fun _ _ _ h => h) (by simp [h]) hst
    exact List.eq_nil_iff_forall_not_mem.mpr this
  refine ⟨c, u, h1, h2, h3, h4, fun b ho hp => ?_, fun b σ ho hp => ?_⟩
  · have hkeep : ∀ p dt t, PlateBeside b p → PlateBeside b (R.ops.move p dt R.C.frameDt t) := by
      intro p dt t ⟨a1, a2, a3⟩
      obtain ⟨b1, b2, b3⟩ := hops.move p dt R.C.frameDt t
      exact ⟨by rw [b2]; exact a1, by rw [b3]; exact a2, by rw [b1]; exact a3⟩
    have heq : ∀ {s1 dt g w}, StepOf R s s1 dt g w → ∀ gf l X v,
        boundaryCollision R.ops R.S.P.useMibf gf dt R.objs s1.w.plates l X v b = v b := by
      intro s1 dt g w hst gf l X v
      rcases hwall with hm | ⟨ho', hp'⟩
      · rw [hmib, hm]
        exact collision_beside hops ho (run_plates hkeep hp hst) l X v
      · rw [hempty hp' hst, ho']; rfl
    have key : ∀ x : ℝ, Directed R s deg dx fr m vol (Pi.single b x) := by
      intro x s1 dt g w hst j hj v _ _ gf l
      rw [single_dotProduct, single_dotProduct, heq hst]
    obtain ⟨a1, a2⟩ := h5 _ (key 1)
    obtain ⟨a3, a4⟩ := h5 _ (key (-1))
    simp only [single_dotProduct, Pi.add_apply, Pi.smul_apply, smul_eq_mul] at a1 a2 a3 a4
    exact ⟨by linarith, by linarith⟩
  · have hkeep : ∀ p dt t, PlateBeside b p ∨ PlateBehind σ b p →
        PlateBeside b (R.ops.move p dt R.C.frameDt t) ∨ PlateBehind σ b (R.ops.move p dt R.C.frameDt t) := by
      intro p dt t h
      obtain ⟨b1, b2, b3⟩ := hops.move p dt R.C.frameDt t
      refine h.imp ?_ ?_
      · rintro ⟨a1, a2, a3⟩
        exact ⟨by rw [b2]; exact a1, by rw [b3]; exact a2, by rw [b1]; exact a3⟩
      · rintro ⟨a1, a2, a3⟩
        exact ⟨by rw [b2]; exact a1, by rw [b1]; exact a2, by rw [b1]; exact a3⟩
    have key : Directed R s deg dx fr m vol (Pi.single b σ) := by
      intro s1 dt g w hst j hj v _ _ gf l
      rw [single_dotProduct, single_dotProduct]
      rcases hwall with hm | ⟨ho', hp'⟩
      · exact collision_behind hops (.inl (hmib.trans hm)) ho (run_plates hkeep hp hst) l _ v
      · rw [hempty hp' hst, ho']; exact le_rfl
    obtain ⟨-, a2⟩ := h5 _ key
    simp only [single_dotProduct, Pi.add_apply, Pi.smul_apply, smul_eq_mul] at a2
    exact a2

/-- **C73** Coulomb's law for whole runs: if all walls with friction are one-sided walls normal to axis `b`, behind the
material (`σ = ±1` is the direction of the open side), with friction coefficients of at most `κ`, and the others are
frictionless, then in every file the momentum which the walls have taken from the body along any direction `e` of
their surface is at most `κ` times the momentum they have given to it along their normal; the same for the
displacement of the centre of mass caused by the walls. -/
theorem C73_coulomb {deg : Deg} {dx fr m vol : ℝ}
    (hS : R.S.P = mkTransferParams deg dx fr false m vol) (hd : deg ≠ .one) (hdx : 0 < dx) (hm : 0 < m)
    (hpbc : R.S.pbc = false) (hcp : R.S.changePos = false) (hops : CoulombOps R.ops)
    (hsched : ∀ k ps, (R.sched k ps).flatten.Perm ps) (hmin : 0 ≤ R.C.minDt)
    (hn : ∀ s1 dt g w, StepOf R s s1 dt g w → NoTinyWeights deg dx w.g s1.w.ps)
    {b : Fin (d + 2)} {σ κ : ℝ} (hσ : σ * σ = 1) (hobj : ∀ o ∈ R.objs, CoulombObject σ κ b o)
    {n : ℕ} {t : ℝ} {w : World (d + 2)}
    (hev : .particles n t w ∈ filesOf (runProgram R i e fuel s)) (hnew : .particles n t w ∉ s.out) :
    ∃ c u, 0 ≤ c ∧ c ≤ t ∧ 0 ≤ u ∧
      (R.C.gravitySpecial = false → c = t ∧ t ^ 2 / 2 ≤ u ∧ u ≤ t ^ 2 / 2 + t * max R.C.dtMax R.C.minDt / 2) ∧
      ∀ ε, ε b = 0 → ε ⬝ᵥ ε ≤ 1 → (∀ p ∈ s.w.plates, CoulombPlate σ κ b p ∨ SmoothPlate b ε p) →
        let J := momentum m w.ps - momentum m s.w.ps - (c * (s.w.ps.length * m)) • s.gravity
        let D := firstMoment m w.ps - firstMoment m s.w.ps - t • momentum m s.w.ps -
          (u * (s.w.ps.length * m)) • s.gravity
        |ε ⬝ᵥ J| ≤ κ * (σ * J b) ∧ |ε ⬝ᵥ D| ≤ κ * (σ * D b) := by
  have hmib : R.S.P.useMibf = false := by rw [hS]; rfl
  obtain ⟨c, u, h1, h2, h3, h4, h5⟩ := directed_run hS hd hdx hm hpbc hcp hsched hmin hn hev hnew
  refine ⟨c, u, h1, h2, h3, h4, fun ε hb he hpl => ?_⟩
  have all : ∀ ε : Fin (d + 2) → ℝ, ε b = 0 → ε ⬝ᵥ ε ≤ 1 →
      (∀ p ∈ s.w.plates, CoulombPlate σ κ b p ∨ SmoothPlate b ε p) →
      Directed R s deg dx fr m vol (Pi.single b (κ * σ) + ε) := by
    intro ε hb he hpl
    have hkeep : ∀ p dt t, CoulombPlate σ κ b p ∨ SmoothPlate b ε p →
        CoulombPlate σ κ b (R.ops.move p dt R.C.frameDt t) ∨ SmoothPlate b ε (R.ops.move p dt R.C.frameDt t) := by
      intro p dt t h
      obtain ⟨b1, b2, b3⟩ := hops.move p dt R.C.frameDt t
      refine h.imp ?_ ?_
      · rintro ⟨a1, a2, a3, a4, a5⟩
        exact ⟨by rw [b2]; exact a1, by rw [b1]; exact a2, by rw [b1]; exact a3, by rw [b3]; exact a4, by rw [b3]; exact a5⟩
      · rintro ⟨a1, a2, a3⟩
        exact ⟨by rw [b2]; exact a1, by rw [b3]; exact a2, by rw [b1]; exact a3⟩
    intro s1 dt g w hst j hj v _ _ gf l
    rw [hmib]
    refine collision_favours (fun o ho => coulombObject_favours hσ hb he (hobj o ho)) (fun p hp => ?_) l _ v
    rcases run_plates hkeep hpl hst p hp with h | h
    · exact hops.coulomb p σ κ b ε hb he h
    · exact hops.smooth p b ε h _
  obtain ⟨a1, a2⟩ := h5 _ (all ε hb he hpl)
  obtain ⟨a3, a4⟩ := h5 _ (all (-ε) (by simp [hb]) (by simpa using he) fun p hp => (hpl p hp).imp_right
    fun h => ⟨h.1, h.2.1, fun k hk => ⟨(h.2.2 k hk).1, by simp [(h.2.2 k hk).2]⟩⟩)
  simp only [add_dotProduct, dotProduct_add, dotProduct_sub, single_dotProduct, Pi.add_apply, Pi.sub_apply,
    Pi.smul_apply, smul_eq_mul, dotProduct_smul, neg_dotProduct] at a1 a2 a3 a4 ⊢
  refine ⟨abs_le.mpr ⟨by nlinarith, by nlinarith⟩, abs_le.mpr ⟨by nlinarith, by nlinarith⟩⟩

end run

section sliding
variable {R : Setup 2} {i e : Bool} {fuel : ℕ} {s : LoopState 2 (World 2)}

lemma slide2_sliding {κ t n τ : ℝ} (hκ : 0 ≤ κ) (hτ : τ = 1 ∨ τ = -1) (h : κ * |n| ≤ τ * t) :
    τ * slide2 κ t n = τ * t - κ * |n| := by
  have hn := mul_nonneg hκ (abs_nonneg n)
  unfold slide2
  rcases hτ with rfl | rfl
  · rw [one_mul] at h
    have ht := hn.trans h
    split_ifs with h1 h2 h3
    · rw [h1]; ring
    · rw [abs_of_nonneg ht] at h2; linarith
    · ring
    · have : t = 0 := le_antisymm (not_lt.mp h3) ht
      subst this
      have : κ * |n| = 0 := le_antisymm h hn
      linarith
  · have ht : t ≤ 0 := by linarith
    split_ifs with h1 h2 h3
    · rw [h1]; ring
    · rw [abs_of_nonpos ht] at h2; linarith
    · linarith
    · ring

/-- **C73** Sliding in 2D: if the only wall is a one-sided plate with friction coefficient `κ` and during the whole run
every node that gets into contact slides along it in direction `τ = ±1` of the other axis `a` (fast enough for friction
not to stop it; `v` is the velocity the node would have without wall), friction takes exactly `κ` times the normal
momentum: Coulomb's law holds with equality, for momentum and centre of mass. -/
theorem C73_sliding {deg : Deg} {dx fr m vol : ℝ}
    (hS : R.S.P = mkTransferParams deg dx fr false m vol) (hd : deg ≠ .one) (hdx : 0 < dx) (hm : 0 < m)
    (hpbc : R.S.pbc = false) (hcp : R.S.changePos = false) (hops : R.ops = plateOps2)
    (hsched : ∀ k ps, (R.sched k ps).flatten.Perm ps) (hmin : 0 ≤ R.C.minDt)
    (hn : ∀ s1 dt g w, StepOf (d := 0) R s s1 dt g w → NoTinyWeights deg dx w.g s1.w.ps)
    {a b : Fin 2} (hab : a ≠ b) {σ κ τ : ℝ} (hobj : R.objs = []) {p : Plate 2} (hpl : s.w.plates = [p])
    (hbc : p.bc = .slipFree) (hax : normalAxis p.type = b) (hside : openSide p.type = σ) (hfr : p.friction = κ)
    (hκ : 0 ≤ κ) (hτ : τ = 1 ∨ τ = -1)
    (hslide : ∀ s1 dt g w, StepOf (d := 0) R s s1 dt g w → ∀ i, IsNode w.g i → ∀ v : Fin 2 → ℝ,
      massAt deg dx m s1.w.ps (nodeAt w.g i) • v =
        freeMomentum deg dx fr R.S.P.apicDinverse m vol dt g s1.w.ps (nodeAt w.g i) →
      0 < massAt deg dx m s1.w.ps (nodeAt w.g i) → ∀ q ∈ s1.w.plates, q.inside2 (nodeAt w.g i + dt • v) →
      σ * (v b - q.vel b) < 0 → κ * |v b - q.vel b| ≤ τ * (v a - q.vel a))
    {n : ℕ} {t : ℝ} {w : World 2}
    (hev : .particles n t w ∈ filesOf (runProgram (d := 0) R i e fuel s)) (hnew : .particles n t w ∉ s.out) :
    ∃ c u, 0 ≤ c ∧ c ≤ t ∧ 0 ≤ u ∧
      (R.C.gravitySpecial = false → c = t ∧ t ^ 2 / 2 ≤ u ∧ u ≤ t ^ 2 / 2 + t * max R.C.dtMax R.C.minDt / 2) ∧
        let J := momentum m w.ps - momentum m s.w.ps - (c * (s.w.ps.length * m)) • s.gravity
        let D := firstMoment m w.ps - firstMoment m s.w.ps - t • momentum m s.w.ps -
          (u * (s.w.ps.length * m)) • s.gravity
        τ * J a = -(κ * (σ * J b)) ∧ τ * D a = -(κ * (σ * D b)) := by
  have hmib : R.S.P.useMibf = false := by rw [hS]; rfl
  obtain ⟨c, u, h1, h2, h3, h4, h5⟩ := directed_run (d := 0) hS hd hdx hm hpbc hcp hsched hmin hn hev hnew
  refine ⟨c, u, h1, h2, h3, h4, ?_⟩
  have hplates : ∀ {s1 dt g w}, StepOf (d := 0) R s s1 dt g w →
      ∃ q, s1.w.plates = [q] ∧ q.type = p.type ∧ q.bc = p.bc ∧ q.friction = p.friction := by
    intro s1 dt g w hst
    have hbeg : (begin (d := 0) R s).w.plates = s.w.plates := by
      rw [begin_w]; unfold fillMuI; split_ifs <;> rfl
    refine (run_inv (d := 0) (Inv := fun w _ _ _ =>
      ∃ q, w.plates = [q] ∧ q.type = p.type ∧ q.bc = p.bc ∧ q.friction = p.friction)
      ⟨p, by rw [hbeg, hpl], rfl, rfl, rfl⟩ ?_ hst).1
    rintro s1 dt g w hst ⟨q, hq, q1, q2, q3⟩
    obtain ⟨b1, b2, b3⟩ := fair2.move q dt R.C.frameDt s1.time
    refine ⟨plateOps2.move q dt R.C.frameDt s1.time, ?_, b1.trans q1, b2.trans q2, b3.trans q3⟩
    rw [physStep_plates (d := 0) hst.phys, hq, hops]
    rfl
  have heq : ∀ s1 dt g w, StepOf (d := 0) R s s1 dt g w → ∀ i, IsNode w.g i → ∀ v : Fin 2 → ℝ,
      0 < massAt deg dx m s1.w.ps (nodeAt w.g i) →
      massAt deg dx m s1.w.ps (nodeAt w.g i) • v =
        freeMomentum deg dx fr R.S.P.apicDinverse m vol dt g s1.w.ps (nodeAt w.g i) → ∀ gf l,
      let v' := boundaryCollision R.ops R.S.P.useMibf gf dt R.objs s1.w.plates l (nodeAt w.g i) v
      τ * v' a + κ * σ * v' b = τ * v a + κ * σ * v b := by
    intro s1 dt g w hst j hj v hpos hv gf l
    obtain ⟨q, hq, q1, q2, q3⟩ := hplates hst
    have hsl := hslide s1 dt g w hst j hj v hv hpos q (by rw [hq]; simp)
    rw [hmib, hobj, hq, hops]
    simp only [boundaryCollision, collideObjects, collidePlates, wallFriction, List.foldl_nil, List.foldl_cons,
      Bool.false_eq_true, if_false]
    by_cases hin : plateOps2.inside q (nodeAt w.g j + dt • v)
    swap
    · rw [if_neg hin]
    rw [if_pos hin, q1, q2, q3, hbc, hfr]
    replace hsl := hsl hin
    simp only [plateOps2, plateRel2]
    have sl := fun hh => slide2_sliding (κ := κ) (t := v a - q.vel a) (n := v b - q.vel b) (τ := τ) hκ hτ hh
    fin_cases b
    · have ha : a = 1 := by
        fin_cases a
        · exact absurd rfl hab
        · rfl
      subst ha
      cases ht : p.type <;> simp [ht, normalAxis, openSide] at hax hside <;> subst hside
      · simp only [Fin.zero_eta, Fin.isValue, reduceCtorEq, false_and, or_self, if_false, true_and, or_false, false_or,
          Pi.sub_apply]
        by_cases hneg : v 0 - q.vel 0 < 0
        · rw [if_pos hneg]
          have := sl (hsl (by simpa using hneg))
          simp at this ⊢
          rw [abs_of_neg hneg] at this
          linarith
        · rw [if_neg hneg]; simp
      · simp only [Fin.zero_eta, Fin.isValue, reduceCtorEq, false_and, or_self, if_false, true_and, or_false, false_or,
          Pi.sub_apply]
        by_cases hneg : v 0 - q.vel 0 > 0
        · rw [if_pos hneg]
          have := sl (hsl (by simpa using hneg))
          simp at this ⊢
          rw [abs_of_pos hneg] at this
          linarith
        · rw [if_neg hneg]; simp
    · have ha : a = 0 := by
        fin_cases a
        · rfl
        · exact absurd rfl hab
      subst ha
      cases ht : p.type <;> simp [ht, normalAxis, openSide] at hax hside <;> subst hside
      · simp only [Fin.mk_one, Fin.isValue, reduceCtorEq, false_and, or_self, if_false, true_and, or_false, false_or,
          Pi.sub_apply]
        by_cases hneg : v 1 - q.vel 1 > 0
        · rw [if_pos hneg]
          have := sl (hsl (by simpa using hneg))
          simp at this ⊢
          rw [abs_of_pos hneg] at this
          linarith
        · rw [if_neg hneg]; simp
      · simp only [Fin.mk_one, Fin.isValue, reduceCtorEq, false_and, or_self, if_false, true_and, or_false, false_or,
          Pi.sub_apply]
        by_cases hneg : v 1 - q.vel 1 < 0
        · rw [if_pos hneg]
          have := sl (hsl (by simpa using hneg))
          simp at this ⊢
          rw [abs_of_neg hneg] at this
          linarith
        · rw [if_neg hneg]; simp
  have key : ∀ x : ℝ, Directed (d := 0) R s deg dx fr m vol (Pi.single a (x * τ) + Pi.single b (x * (κ * σ))) := by
    intro x s1 dt g w hst j hj v hpos hv gf l
    have := heq s1 dt g w hst j hj v hpos hv gf l
    simp only [add_dotProduct, single_dotProduct] at this ⊢
    have h := congrArg (fun y => x * y) this
    nlinarith [h]
  obtain ⟨a1, a2⟩ := h5 _ (key 1)
  obtain ⟨a3, a4⟩ := h5 _ (key (-1))
  simp only [add_dotProduct, single_dotProduct, Pi.add_apply, Pi.sub_apply,
    Pi.smul_apply, smul_eq_mul] at a1 a2 a3 a4 ⊢
  exact ⟨by nlinarith, by nlinarith⟩

end sliding
end Verif.Props
