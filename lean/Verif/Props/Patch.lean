import Verif.Lemmas.Lattice
import Verif.Props.Local
import Verif.Props.Motion
import Verif.Props.Sampling

set_option linter.unusedSectionVars false
set_option linter.unusedSimpArgs false
set_option linter.unusedVariables false

/-!
# C103: the patch test
-/

namespace Verif.Props
open Verif Matrix

open Classical in
/-- Spec: closer than `r` to `x` (in every direction) the points of the list are exactly those of a lattice with
spacing `h`, each of them once. -/
def LatticeNear {d : ℕ} (h r : ℝ) (x : Fin d → ℝ) (l : List (Fin d → ℝ)) : Prop :=
  ∃ o : Fin d → ℝ,
    (∀ z : Fin d → ℤ, (∀ a, |o a + h * z a - x a| < r) → l.count (fun a => o a + h * z a) = 1) ∧
    ∀ y ∈ l, (∀ a, |y a - x a| < r) → ∃ z : Fin d → ℤ, y = fun a => o a + h * z a

variable {d : ℕ}

lemma LatticeNear.mono {h r r' : ℝ} {x x' : Fin d → ℝ} {l : List (Fin d → ℝ)} (hl : LatticeNear h r x l)
    (hr : ∀ a, |x' a - x a| + r' ≤ r) : LatticeNear h r' x' l := by
  have key : ∀ y : Fin d → ℝ, (∀ a, |y a - x' a| < r') → ∀ a, |y a - x a| < r := by
    intro y hy a
    have h1 := abs_add_le (y a - x' a) (x' a - x a)
    have h2 := hy a
    have h3 := hr a
    rw [show y a - x' a + (x' a - x a) = y a - x a by ring] at h1
    linarith
  obtain ⟨o, h1, h2⟩ := hl
  exact ⟨o, fun z hz => h1 z (key _ hz), fun y hy hz => h2 y hy (key _ hz)⟩

/-- A sum over regular points as a sum over integers. -/
lemma regular_sum {M : Type*} [AddCommMonoid M] {h r : ℝ} (hh : 0 < h) {x : Fin d → ℝ} {l : List (Fin d → ℝ)}
    (hl : LatticeNear h r x l) : ∃ (o : Fin d → ℝ) (T : Fin d → Finset ℤ),
      (∀ a (z : ℤ), |o a + h * z - x a| < r → z ∈ T a) ∧
      ∀ F : (Fin d → ℝ) → M, (∀ y, F y ≠ 0 → ∀ a, |y a - x a| < r) →
        (l.map F).sum = ∑ z ∈ Fintype.piFinset T, F fun a => o a + h * z a := by
  classical
  obtain ⟨o, h1, h2⟩ := hl
  have hT : ∀ a (z : ℤ), |o a + h * z - x a| < r → z ∈ Finset.Icc (⌊(x a - o a - r) / h⌋) (⌈(x a - o a + r) / h⌉) := by
    intro a z hz
    rw [abs_lt] at hz
    rw [Finset.mem_Icc]
    constructor
    · refine Int.floor_le_iff.mpr ?_
      have : (x a - o a - r) / h < z := by rw [div_lt_iff₀ hh]; linarith
      linarith
    · have : (z : ℝ) < (x a - o a + r) / h := by rw [lt_div_iff₀ hh]; linarith
      exact_mod_cast this.le.trans (Int.le_ceil _)
  refine ⟨o, _, hT, fun F hF => ?_⟩
  rw [Finset.sum_list_map_count]
  symm
  refine Finset.sum_bij_ne_zero (fun z _ _ => fun a => o a + h * z a) ?_ ?_ ?_ ?_
  · intro z _ hz
    have := h1 z (hF _ hz)
    exact List.mem_toFinset.mpr (List.count_pos_iff.mp (by omega))
  · intro z _ _ z' _ _ e
    funext a
    have := congrFun e a
    simp only [add_right_inj] at this
    exact_mod_cast mul_left_cancel₀ hh.ne' this
  · intro y hy hne
    have hy' := hF y fun h0 => hne (by rw [h0, smul_zero])
    obtain ⟨z, rfl⟩ := h2 y (List.mem_toFinset.mp hy) hy'
    refine ⟨z, Fintype.mem_piFinset.mpr fun a => hT a _ (hy' a), ?_, rfl⟩
    rwa [h1 z hy', one_smul] at hne
  · intro z _ hz
    rw [h1 z (hF _ hz), one_smul]


section node
variable {deg : Deg} {dx fr m vol : ℝ} {mibf : Bool} {g : Axes d ℝ} {threads : List (List (Particle d ℝ))}

lemma shape_near (hdx : 0 < dx) {X y : Fin d → ℝ} (h : shape deg dx X y ≠ 0) (a : Fin d) :
    |y a - X a| < width deg / 2 * dx := by
  by_contra hlt
  refine h (Finset.prod_eq_zero (Finset.mem_univ a) (N_width ?_))
  rw [abs_div, abs_of_pos hdx, le_div_iff₀ hdx]
  exact not_lt.mp hlt

lemma shapeGrad_zero {X y : Fin d → ℝ} (h : shape deg dx X y = 0) : shapeGrad deg dx X y = 0 := by
  obtain ⟨a, -, ha⟩ := Finset.prod_eq_zero_iff.mp h
  funext b
  refine Finset.prod_eq_zero (Finset.mem_univ a) ?_
  split_ifs
  · rw [dN_eq_zero_of_N_eq_zero ha, zero_div]
  · exact ha

/-- The shape function of a node added up over regular points. -/
lemma regular_shape (hdx : 0 < dx) {k : ℕ} (hk : 0 < k) {X : Fin d → ℝ} {l : List (Fin d → ℝ)}
    (hl : LatticeNear (dx / k) (width deg / 2 * dx) X l) : (l.map fun y => shape deg dx X y).sum = (k : ℝ) ^ d := by
  have hk' : (0 : ℝ) < k := by exact_mod_cast hk
  obtain ⟨o, T, hT, hsum⟩ := regular_sum (M := ℝ) (div_pos hdx hk') hl
  rw [hsum _ fun y hy => shape_near hdx hy]
  simp only [shape]
  rw [← Finset.prod_univ_sum T fun a z => N deg ((o a + dx / k * (z : ℝ) - X a) / dx)]
  rw [Finset.prod_congr rfl fun a _ => sum_N_lattice deg hdx hk (o a) (X a) fun z hz => hT a z ?_]
  · simp
  · by_contra hlt
    refine hz (N_width ?_)
    rw [abs_div, abs_of_pos hdx, le_div_iff₀ hdx]
    exact not_lt.mp hlt

/-- Its gradients cancel. -/
lemma regular_shapeGrad (hd : deg ≠ .one) (hdx : 0 < dx) {k : ℕ} (hk : 0 < k) {X : Fin d → ℝ} {l : List (Fin d → ℝ)}
    (hl : LatticeNear (dx / k) (width deg / 2 * dx) X l) : (l.map fun y => shapeGrad deg dx X y).sum = 0 := by
  have hk' : (0 : ℝ) < k := by exact_mod_cast hk
  obtain ⟨o, T, hT, hsum⟩ := regular_sum (M := Fin d → ℝ) (div_pos hdx hk') hl
  rw [hsum _ fun y hy => shape_near (deg := deg) hdx fun h0 => hy (shapeGrad_zero h0)]
  funext b
  rw [Finset.sum_apply]
  simp only [shapeGrad]
  rw [← Finset.prod_univ_sum T fun a z => if a = b then dNdu deg ((o a + dx / k * (z : ℝ) - X a) / dx) / dx else
    N deg ((o a + dx / k * (z : ℝ) - X a) / dx)]
  refine Finset.prod_eq_zero (Finset.mem_univ b) ?_
  simp only [if_true]
  rw [← Finset.sum_div, sum_dN_lattice hd hdx hk (o b) (X b) fun z hz => hT b z ?_, zero_div]
  by_contra hlt
  refine hz (N_width ?_)
  rw [abs_div, abs_of_pos hdx, le_div_iff₀ hdx]
  exact not_lt.mp hlt

lemma filter_sum {α M : Type*} [AddCommMonoid M] {q : α → Prop} [DecidablePred q] {f : α → M} : ∀ {l : List α},
    (∀ a ∈ l, ¬ q a → f a = 0) → ((l.filter fun a => q a).map f).sum = (l.map f).sum
  | [], _ => rfl
  | a :: l, h => by
    have ih := filter_sum (l := l) fun b hb => h b (by simp [hb])
    by_cases ha : q a
    · simp [List.filter_cons, ha, ih]
    · simp [List.filter_cons, ha, ih, h a (by simp) ha]

/-- **C103** A grid node inside a regularly sampled body (`k` particles per cell in each direction) has the mass of the
`k^d` particles of one cell, and if these have the same stress there is no force on it. -/
theorem C103_node (h : GoodGrid dx g threads.flatten) (hd : deg ≠ .one) {k : ℕ} (hk : 0 < k) {i : Fin d → ℕ} (hi : IsNode g i)
    (hreg : LatticeNear (dx / k) (width deg / 2 * dx) (nodeAt g i) (threads.flatten.map fun p => p.x))
    (hn : NoTinyWeights deg dx g threads.flatten) {τ : Matrix (Fin d) (Fin d) ℝ}
    (hτ : ∀ p ∈ threads.flatten, (∀ a, |p.x a - nodeAt g i a| < width deg / 2 * dx) → p.tau = τ) :
    ∃ arr, P2G (mkTransferParams deg dx fr mibf m vol) g threads = some arr ∧
      (arr (flatIndex g.size i)).mass = k ^ d * m ∧ (arr (flatIndex g.size i)).force = 0 := by
  obtain ⟨arr, harr, hn1⟩ := C54_p2g_nodes (deg := deg) (fr := fr) (m := m) (vol := vol) (mibf := mibf) h
  obtain ⟨h1, h2, -⟩ := hn1 i hi
  have hcut : ∀ p ∈ threads.flatten, ¬ (1 / 10 ^ 25 < shape deg dx (nodeAt g i) p.x) → shape deg dx (nodeAt g i) p.x = 0 :=
    fun p hp h0 => (hn p hp i hi).resolve_right h0
  refine ⟨arr, harr, ?_, ?_⟩
  · rw [h1, mul_comm, ← regular_shape h.dx_pos hk hreg, List.map_map]
    congr 1
    exact filter_sum hcut
  · rw [h2, filter_sum fun p hp h0 => by rw [shapeGrad_zero (hcut p hp h0), mulVec_zero]]
    rw [List.map_congr_left (g := fun p => τ *ᵥ shapeGrad deg dx (nodeAt g i) p.x) fun p hp => ?_]
    · have := congrArg (τ.mulVecLin) (regular_shapeGrad hd h.dx_pos hk hreg)
      rw [map_list_sum, List.map_map, List.map_map, map_zero] at this
      exact this
    · by_cases h0 : shape deg dx (nodeAt g i) p.x = 0
      · rw [shapeGrad_zero h0, mulVec_zero, mulVec_zero]
      · rw [hτ p hp (shape_near h.dx_pos h0)]

end node

section step
variable {R : Setup (d + 2)} {s : LoopState (d + 2) (World (d + 2))} {deg : Deg} {dx fr m vol : ℝ} {mibf : Bool}

/-- Spec: up to the distance `r` from the particle `p` (in every direction) the body is sampled regularly with spacing
`h`, and the particles move alike and have the same stress. -/
structure Interior {d : ℕ} (h r : ℝ) (ps : List (Particle d ℝ)) (p : Particle d ℝ) : Prop where
  regular : LatticeNear h r p.x (ps.map fun q => q.x)
  alike : ∀ q ∈ ps, (∀ a, |q.x a - p.x a| < r) → q.v = p.v ∧ q.Bmat = 0 ∧ q.tau = p.tau

lemma Interior.mono {d : ℕ} {h r r' : ℝ} {ps : List (Particle d ℝ)} {p p' : Particle d ℝ} (hp : Interior h r ps p)
    (hp' : p' ∈ ps) (hr' : 0 ≤ r') (hr : ∀ a, |p'.x a - p.x a| + r' < r) : Interior h r' ps p' := by
  obtain ⟨e1, e2, e3⟩ := hp.alike p' hp' fun a => lt_of_le_of_lt (le_add_of_nonneg_right hr') (hr a)
  refine ⟨hp.regular.mono fun a => (hr a).le, fun q hq hqa => ?_⟩
  obtain ⟨f1, f2, f3⟩ := hp.alike q hq fun a => by
    have h1 := abs_add_le (q.x a - p'.x a) (p'.x a - p.x a)
    have h2 := hqa a
    have h3 := hr a
    rw [show q.x a - p'.x a + (p'.x a - p.x a) = q.x a - p.x a by ring] at h1
    linarith
  exact ⟨f1.trans e1.symm, f2, f3.trans e3.symm⟩

/-- Spec: no wall is met within the distance `r` from `y`. -/
def NoWallNear (R : Setup (d + 2)) (r : ℝ) (plates : List (Plate (d + 2))) (y : Fin (d + 2) → ℝ) : Prop :=
  ∀ z, (∀ a, |z a - y a| < r) → (∀ o ∈ R.objs, ¬ o.inside z) ∧ ∀ pl ∈ plates, ¬ R.ops.inside pl z

lemma collide_none {objs : List (GenObject (d + 2))} {plates : List (Plate (d + 2))} {ops : PlateOps (d + 2)} {fr : ℝ → ℝ}
    {Y v : Fin (d + 2) → ℝ} (h1 : ∀ o ∈ objs, ¬ o.inside Y) (h2 : ∀ pl ∈ plates, ¬ ops.inside pl Y) :
    collidePlates ops.inside ops.rel fr Y plates (collideObjects fr Y objs v) = v := by
  have e1 : collideObjects fr Y objs v = v := by
    unfold collideObjects
    induction objs with
    | nil => rfl
    | cons o L ih =>
      rw [List.foldl_cons, if_neg (h1 o (by simp))]
      exact ih fun o ho => h1 o (by simp [ho])
  rw [e1]
  unfold collidePlates
  induction plates with
  | nil => rfl
  | cons o L ih =>
    rw [List.foldl_cons, if_neg (h2 o (by simp))]
    exact ih fun o ho => h2 o (by simp [ho])

/-- The velocity of a node near an interior particle after the grid update. -/
lemma patch_node {dt : ℝ} {grav : Fin (d + 2) → ℝ} {w : World (d + 2)} {g : Axes (d + 2) ℝ}
    (hS : R.S.P = mkTransferParams deg dx fr mibf m vol) (hd : deg ≠ .one) (hm : 0 < m) {k : ℕ} (hk : 0 < k)
    (hg : GoodGrid dx g w.ps) (hn : NoTinyWeights deg dx g w.ps) {p : Particle (d + 2) ℝ} (hp : Interior (dx / k) (width deg * dx) w.ps p)
    (hw : NoWallNear R (width deg / 2 * dx) w.plates (p.x + dt • (p.v + dt • grav)))
    {i : Fin (d + 2) → ℕ} (hi : IsNode g i) (hnear : shape deg dx (nodeAt g i) p.x ≠ 0) :
    let e := stepEuler R.S deg dx dt grav (wallsOn R deg dx dt g w) g w.ps
    e.v (flatIndex g.size i) = p.v + dt • grav ∧ e.flip (flatIndex g.size i) = dt • grav := by
  have hdx := hg.dx_pos
  have hX := fun a => shape_near hdx hnear a
  have hreg : LatticeNear (dx / k) (width deg / 2 * dx) (nodeAt g i) (w.ps.map fun q => q.x) := hp.regular.mono fun a => by
    have := hX a
    rw [abs_sub_comm] at this
    linarith
  have hsub : ∀ q ∈ w.ps, (∀ a, |q.x a - nodeAt g i a| < width deg / 2 * dx) → q.v = p.v ∧ q.Bmat = 0 ∧ q.tau = p.tau := by
    intro q hq hqa
    refine hp.alike q hq fun a => ?_
    have h1 := abs_add_le (q.x a - nodeAt g i a) (nodeAt g i a - p.x a)
    have h2 := hqa a
    have h3 := hX a
    rw [abs_sub_comm] at h3
    rw [show q.x a - nodeAt g i a + (nodeAt g i a - p.x a) = q.x a - p.x a by ring] at h1
    linarith
  have hfl : [w.ps].flatten = w.ps := by simp
  have hP := P2G_eq (P := R.S.P) (deg := deg) (dx := dx) (g := g) (ts := [w.ps]) (by rw [hS]; rfl) (by rw [hS]; rfl)
    (by rw [hfl]; exact hg)
  rw [hfl, hS] at hP
  obtain ⟨arr, ha, hmass, hforce⟩ := C103_node (deg := deg) (fr := fr) (m := m) (vol := vol) (mibf := mibf) (threads := [w.ps])
    (by rw [hfl]; exact hg) hd hk hi (by rw [hfl]; exact hreg) (by rw [hfl]; exact hn) (τ := p.tau)
    (by rw [hfl]; exact fun q hq h => (hsub q hq h).2.2)
  rw [hP] at ha
  obtain rfl := Option.some.inj ha
  obtain ⟨arr, ha, hC⟩ := C54_p2g_nodes (deg := deg) (fr := fr) (m := m) (vol := vol) (mibf := mibf) (threads := [w.ps])
    (by rw [hfl]; exact hg)
  rw [hP] at ha
  obtain rfl := Option.some.inj ha
  obtain ⟨h1, -, h3, -⟩ := hC i hi
  rw [hfl] at h1 h3
  have hk' : (0 : ℝ) < (k : ℝ) ^ (d + 2) := by positivity
  have hv : (p2gFinish (mkTransferParams deg dx fr mibf m vol) (raw (mkTransferParams deg dx fr mibf m vol) deg dx g w.ps)
      (flatIndex g.size i)).v = p.v := by
    have hsum : ((w.ps.filter fun q => 1 / 10 ^ 25 < shape deg dx (nodeAt g i) q.x).map fun q =>
        shape deg dx (nodeAt g i) q.x).sum = (k : ℝ) ^ (d + 2) := by
      rw [h1, mul_comm] at hmass
      exact mul_right_cancel₀ hm.ne' hmass
    rw [hsum] at h3
    have hr : ((w.ps.filter fun q => 1 / 10 ^ 25 < shape deg dx (nodeAt g i) q.x).map fun q =>
        shape deg dx (nodeAt g i) q.x • (q.v + if fr < 0 then (mkTransferParams deg dx fr mibf m vol).apicDinverse •
              (q.Bmat *ᵥ (nodeAt g i - q.x)) else 0)).sum = (k : ℝ) ^ (d + 2) • p.v := by
      rw [← hsum, List.map_congr_left (g := fun q => shape deg dx (nodeAt g i) q.x • p.v) fun q hq => ?_]
      · generalize w.ps.filter _ = L
        induction L with
        | nil => simp
        | cons q L ih => simp only [List.map_cons, List.sum_cons, ih, add_smul]
      · obtain ⟨hq1, hq2⟩ := List.mem_filter.mp hq
        have hne : shape deg dx (nodeAt g i) q.x ≠ 0 := by
          have : 1 / 10 ^ 25 < shape deg dx (nodeAt g i) q.x := by simpa using hq2
          exact (lt_trans (by norm_num) this).ne'
        obtain ⟨hv, hB, -⟩ := hsub q hq1 (shape_near hdx hne)
        rw [hv, hB, zero_mulVec, smul_zero, ite_self, add_zero]
    rw [hr] at h3
    exact smul_right_injective _ hk'.ne' h3
  have he := eulerUpdate_at R.S.P dt grav (wallsOn R deg dx dt g w) g (p2gFinish R.S.P (raw R.S.P deg dx g w.ps)) hi
  have hpos : 0 < (p2gFinish R.S.P (raw R.S.P deg dx g w.ps) (flatIndex g.size i)).mass := by
    rw [hS, hmass]; positivity
  have hinc : incrAt R.S.P dt grav (p2gFinish R.S.P (raw R.S.P deg dx g w.ps) (flatIndex g.size i)) = dt • grav := by
    rw [incrAt, hS, hforce, smul_zero, zero_add]
  have hbc : wallsOn R deg dx dt g w (flatIndex g.size i) (nodeAt g i) (p.v + dt • grav) = p.v + dt • grav := by
    have := hw (nodeAt g i + dt • (p.v + dt • grav)) fun a => by
      have := hX a
      rw [abs_sub_comm] at this
      simpa using this
    exact collide_none this.1 this.2
  simp only [if_pos hpos, hinc] at he
  rw [show (p2gFinish R.S.P (raw R.S.P deg dx g w.ps) (flatIndex g.size i)).v = p.v by rw [hS]; exact hv, hbc] at he
  refine ⟨he.1, he.2.trans ?_⟩
  abel


/-- The transfer to an interior particle. -/
lemma patch_transfer {dt : ℝ} {grav : Fin (d + 2) → ℝ} {w : World (d + 2)} {g : Axes (d + 2) ℝ}
    (hS : R.S.P = mkTransferParams deg dx fr mibf m vol) (hd : deg ≠ .one) (hm : 0 < m) {k : ℕ} (hk : 0 < k)
    (hg : GoodGrid dx g w.ps) (hn : NoTinyWeights deg dx g w.ps) {p : Particle (d + 2) ℝ} (hmem : p ∈ w.ps)
    (hp : Interior (dx / k) (width deg * dx) w.ps p)
    (hw : NoWallNear R (width deg / 2 * dx) w.plates (p.x + dt • (p.v + dt • grav))) :
    let q := g2pTransfer R.S.P g.size (stepEuler R.S deg dx dt grav (wallsOn R deg dx dt g w) g w.ps) p (stencilOf deg dx g p.x)
    q.pic = p.v + dt • grav ∧ q.Bmat = 0 ∧ blendVelocity R.S.P q = p.v + dt • grav := by
  have hgood := hg.good (deg := deg) hmem
  have hnode : ∀ c, (stencilOf deg dx g p.x).weight c ≠ 0 → _ := fun c hc =>
    patch_node (dt := dt) (grav := grav) hS hd hm hk hg hn hp hw (i := (stencilOf deg dx g p.x).node c) (hgood.ok.node_lt c) (by
      rw [← hgood.pos, ← hgood.weight]; exact hc)
  set e := stepEuler R.S deg dx dt grav (wallsOn R deg dx dt g w) g w.ps
  have hpic : interpV g.size e.v (stencilOf deg dx g p.x) = p.v + dt • grav :=
    (interp_const hgood.ok fun i hi => (hnode i hi).1).1
  have hB : interpB g.size e.v (stencilOf deg dx g p.x) p.x = 0 :=
    (interp_const hgood.ok fun i hi => (hnode i hi).1).2.1
  have hflip : interpV g.size e.flip (stencilOf deg dx g p.x) = dt • grav :=
    (interp_const hgood.ok fun i hi => (hnode i hi).2).1
  refine ⟨hpic, by simp only [g2pTransfer, hB, ite_self], ?_⟩
  simp only [blendVelocity, g2pTransfer, hpic, hflip]
  by_cases f1 : R.S.P.flipRatio < -1
  · rw [if_pos f1]
  · rw [if_neg f1, if_pos (not_lt.mp f1), ← add_smul, ← add_smul]
    simp

/-- The velocity with which the gradient is computed, at the nodes near a particle deep inside. -/
lemma patch_gradVel {dt : ℝ} {grav : Fin (d + 2) → ℝ} {w : World (d + 2)} {g : Axes (d + 2) ℝ}
    (hS : R.S.P = mkTransferParams deg dx fr mibf m vol) (hd : deg ≠ .one) (hm : 0 < m) {k : ℕ} (hk : 0 < k)
    (hg : GoodGrid dx g w.ps) (hn : NoTinyWeights deg dx g w.ps) {p : Particle (d + 2) ℝ} (hmem : p ∈ w.ps)
    (hp : Interior (dx / k) (2 * width deg * dx) w.ps p)
    (hw : NoWallNear R (2 * width deg * dx) w.plates (p.x + dt • (p.v + dt • grav)))
    {i : Fin (d + 2) → ℕ} (hi : IsNode g i) (hnear : shape deg dx (nodeAt g i) p.x ≠ 0) :
    gradVel R.S deg dx dt grav (wallsOn R deg dx dt g w) g w.ps (flatIndex g.size i) = p.v + dt • grav := by
  have hdx := hg.dx_pos
  have hwid : 0 < width deg * dx := mul_pos (by cases deg <;> norm_num [width]) hdx
  have hin : ∀ q ∈ w.ps, (∀ a, |q.x a - p.x a| < width deg * dx) →
      Interior (dx / k) (width deg * dx) w.ps q ∧
      NoWallNear R (width deg / 2 * dx) w.plates (q.x + dt • (q.v + dt • grav)) ∧ q.v = p.v := by
    intro q hq hqa
    have hv := (hp.alike q hq fun a => by have := hqa a; linarith).1
    refine ⟨hp.mono hq hwid.le fun a => by have := hqa a; linarith, fun z hz => hw z fun a => ?_, hv⟩
    have h1 := abs_add_le (z a - (q.x + dt • (q.v + dt • grav)) a) (q.x a - p.x a)
    have h2 := hqa a
    have h3 := hz a
    rw [hv] at h1 h3
    rw [show z a - (q.x + dt • (p.v + dt • grav)) a + (q.x a - p.x a) = z a - (p.x + dt • (p.v + dt • grav)) a by
      simp only [Pi.add_apply]; ring] at h1
    linarith
  have hpp := hin p hmem fun a => by rw [sub_self, abs_zero]; exact hwid
  have hnode := patch_node (dt := dt) (grav := grav) hS hd hm hk hg hn hpp.1 hpp.2.1 hi hnear
  cases hmu : R.S.useMusl with
  | false =>
    simp only [gradVel, hmu, Bool.false_eq_true, if_false]
    exact hnode.1
  | true =>
    simp only [gradVel, hmu, if_true, muslFinish]
    have hX := fun a => shape_near hdx hnear a
    have hreg : LatticeNear (dx / k) (width deg / 2 * dx) (nodeAt g i) (w.ps.map fun q => q.x) := hp.regular.mono fun a => by
      have := hX a
      rw [abs_sub_comm] at this
      linarith
    have hmass : (p2gFinish R.S.P (raw R.S.P deg dx g w.ps) (flatIndex g.size i)).mass = (k : ℝ) ^ (d + 2) * m := by
      have hfl : [w.ps].flatten = w.ps := by simp
      obtain ⟨arr, ha, hmass, -⟩ := C103_node (deg := deg) (fr := fr) (m := m) (vol := vol) (mibf := mibf) (threads := [w.ps])
        (by rw [hfl]; exact hg) hd hk hi (by rw [hfl]; exact hreg) (by rw [hfl]; exact hn) (τ := p.tau)
        (by
          rw [hfl]
          intro q hq hqa
          refine (hp.alike q hq fun a => ?_).2.2
          have h1 := abs_add_le (q.x a - nodeAt g i a) (nodeAt g i a - p.x a)
          have h2 := hqa a
          have h3 := hX a
          rw [abs_sub_comm] at h3
          rw [show q.x a - nodeAt g i a + (nodeAt g i a - p.x a) = q.x a - p.x a by ring] at h1
          linarith)
      rw [P2G_eq (P := mkTransferParams deg dx fr mibf m vol) (deg := deg) (dx := dx) rfl rfl (by rw [hfl]; exact hg), hfl,
        ← hS] at ha
      obtain rfl := Option.some.inj ha
      exact hmass
    have hk' : (0 : ℝ) < (k : ℝ) ^ (d + 2) := by positivity
    have hPm : R.S.P.particleMass = m := by rw [hS]; rfl
    rw [if_pos (by rw [hmass]; positivity)]
    set f := fun q : Particle (d + 2) ℝ =>
      let q' := g2pTransfer R.S.P g.size (stepEuler R.S deg dx dt grav (wallsOn R deg dx dt g w) g w.ps) q (stencilOf deg dx g q.x)
      ({ q' with v := blendVelocity R.S.P q' } : Particle (d + 2) ℝ) with hf
    have hgf : GoodGrid dx g (w.ps.map f) := hg.map (fun _ _ => rfl)
    have hv : (raw R.S.P deg dx g (w.ps.map f) (flatIndex g.size i)).v =
        (raw R.S.P deg dx g w.ps (flatIndex g.size i)).mass • (p.v + dt • grav) := by
      rw [raw_node hgf hi, raw_node hg hi, List.map_map, ← Cell.vHom_apply, ← massSmul_apply, map_list_sum, map_list_sum,
        List.map_map, List.map_map]
      congr 1
      refine List.map_congr_left fun q hq => ?_
      simp only [Function.comp]
      have hfx : (f q).x = q.x := rfl
      rw [hfx]
      by_cases hc : shape deg dx (nodeAt g i) q.x > cutoff
      · rw [if_pos hc, if_pos hc]
        have hne : shape deg dx (nodeAt g i) q.x ≠ 0 := (lt_trans (by norm_num [cutoff]) hc).ne'
        obtain ⟨h1, h2, h3⟩ := hin q hq fun a => by
          have h1 := abs_add_le (q.x a - nodeAt g i a) (nodeAt g i a - p.x a)
          have h2 := shape_near hdx hne a
          have h3 := hX a
          rw [abs_sub_comm] at h3
          rw [show q.x a - nodeAt g i a + (nodeAt g i a - p.x a) = q.x a - p.x a by ring] at h1
          linarith
        obtain ⟨-, t2, t3⟩ := patch_transfer hS hd hm hk hg hn hq h1 h2
        have hfv : (f q).v = p.v + dt • grav := by rw [← h3]; exact t3
        have hfB : (f q).Bmat = 0 := t2
        simp only [Cell.vHom_apply, massSmul_apply, nodeContribution, hfv, hfB, hfx]
        split_ifs <;> simp
      · rw [if_neg hc, if_neg hc, map_zero, map_zero]
    rw [hv]
    rw [finish_mass, hPm] at hmass
    rw [finish_mass, hPm, smul_smul, mul_div_assoc, div_self hm.ne', mul_one,
      inv_mul_cancel₀ (mul_right_cancel₀ hm.ne' hmass ▸ hk'.ne'), one_smul]

/-- **C103** Patch test: a particle deep inside a regularly sampled body which moves uniformly and is under uniform stress
feels nothing but gravity in a step of a run; with or without MUSL, every `flip_ratio`, plastic model and quadratic or
cubic splines. The deformation gradient given to the plastic model is the old one. -/
theorem C103_step {s1 : LoopState (d + 2) (World (d + 2))} {dt : ℝ} {g : Fin (d + 2) → ℝ} {w : World (d + 2)} {k : ℕ}
    (hS : R.S.P = mkTransferParams deg dx fr mibf m vol) (hd : deg ≠ .one) (hdx : 0 < dx) (hm : 0 < m) (hk : 0 < k)
    (hpbc : R.S.pbc = false) (hch : R.S.changePos = false) (hsched : ∀ k ps, (R.sched k ps).flatten.Perm ps)
    (hst : StepOf R s s1 dt g w) (hn : NoTinyWeights deg dx w.g s1.w.ps) :
    List.Forall₂ (fun p q => Interior (dx / k) (2 * width deg * dx) s1.w.ps p →
      NoWallNear R (2 * width deg * dx) s1.w.plates (p.x + dt • (p.v + dt • g)) →
      q.v = p.v + dt • g ∧ q.x = p.x + dt • (p.v + dt • g) ∧ q.Bmat = 0 ∧
      (∃ r o, plasticity R.cabs R.svd R.m dt r false = some o ∧ r.F = p.F ∧ r.epsPlVol = p.epsPlVol ∧
        r.epsPlDev = p.epsPlDev ∧ q.F = o.q.F ∧ q.tau = o.q.tau ∧ q.epsPlVol = o.q.epsPlVol ∧ q.epsPlDev = o.q.epsPlDev) ∧
      (R.m.plastic = .noPlasticity → q.F = p.F)) s1.w.ps w.ps := by
  have h := hst.phys
  have hP : R.S.P.deg = deg := by rw [hS]; rfl
  have hP1 : R.S.P.oneOverDx = 1 / dx := by rw [hS]; rfl
  have hPdx : R.S.P.dx = dx := by rw [hS]; rfl
  have hgood := physStep_goodGrid hpbc (by rw [hPdx]; exact hdx) (by rw [hS]; rfl) h
  rw [hPdx] at hgood
  obtain ⟨bg, hbg, hbg2⟩ := physStep_choose h
  rw [hbg2] at hgood hn
  rw [physStep_good hpbc hP hP1 (hsched _) hbg hgood] at h
  obtain ⟨qs, hqs, h1⟩ := Option.map_eq_some_iff.mp h
  obtain ⟨rfl, -⟩ := Prod.mk.inj h1
  rw [List.forall₂_map_right_iff]
  refine forall₂_imp_mem (mapM_forall₂ hqs) fun p hp o ho hint hnw => ?_
  have hwid : 0 < width deg * dx := mul_pos (by cases deg <;> norm_num [width]) hdx
  obtain ⟨t1, t2, t3⟩ := patch_transfer (dt := dt) (grav := g) hS hd hm hk hgood hn hp
    (hint.mono hp hwid.le fun a => by rw [sub_self, abs_zero]; linarith)
    (fun z hz => hnw z fun a => by have := hz a; linarith)
  have hgp := hgood.good (deg := deg) hp
  obtain ⟨D, hD⟩ := hgp.gradOK hd
  have hgrad := (interp_const (c := p.v + dt • g) hgp.ok fun i hi => patch_gradVel (dt := dt) (grav := g) hS hd hm hk hgood hn hp
    hint hnw (i := (stencilOf deg dx bg.2 p.x).node i) (hgp.ok.node_lt i) (by rw [← hgp.pos, ← hgp.weight]; exact hi)).2.2 D hD
  simp only [particleStep] at ho
  rw [hgrad] at ho
  have hF : trialF dt (0 : Matrix (Fin (d + 2)) (Fin (d + 2)) ℝ) p.F = p.F := by simp [trialF]
  rw [hF] at ho
  obtain ⟨out, hout, rfl⟩ := plasticUpdate_some ho
  obtain ⟨m1, m2, m3, m4, m5⟩ := motion_plasticity hout
  refine ⟨?_, ?_, ?_, ⟨_, out, hout, rfl, ?_, ?_, rfl, rfl, rfl, rfl⟩, fun hno => ?_⟩
  · cases hmu : R.S.useMusl with
    | true =>
      simp only [positionParticle, if_true]
      rw [m2]
      simp only [hmu, if_true]
      exact t3
    | false =>
      simp only [positionParticle, Bool.false_eq_true, if_false]
      simp only [hmu, Bool.false_eq_true, if_false] at m2 m3 m4
      rw [← t3]
      unfold blendVelocity
      rw [m2, m3, m4]
  · simp only [positionParticle, hch, Bool.false_eq_true, if_false]
    rw [m1, m3]
    cases hmu : R.S.useMusl with
    | true => simp only [if_true, t1]; rfl
    | false => simp only [Bool.false_eq_true, if_false, t1]; rfl
  · show out.q.Bmat = 0
    rw [m5]
    cases hmu : R.S.useMusl with
    | true => simpa only [if_true] using t2
    | false => simpa only [Bool.false_eq_true, if_false] using t2
  · cases R.S.useMusl <;> rfl
  · cases R.S.useMusl <;> rfl
  · obtain ⟨st, hst, rfl⟩ := plasticity_some.mp hout
    show st.q.F = p.F
    rw [((plastModel_noPlasticity hno).mp hst).2]

end step

section sampled
variable {rho dx ppc h r : ℝ} {lo L : Fin d → ℝ} {c : (Fin d → ℝ) → Prop} {n : Fin d → ℕ} {s : Sampled d} {k : ℕ}

/-- **C103** Bodies made with the regular samplers are regular inside, with spacing `dx / k` if there are `k` to the power
of the dimension particles per cell (the default: `k = 2`): around every point which is at least `r` plus one spacing from
the faces of the box and around which nothing is cropped. -/
theorem C103_sampled (b : RegularBox rho dx ppc lo L c h n s) (hd : d ≠ 0) (hdx : 0 < dx) (hk : 0 < k)
    (hppc : ppc = (k : ℝ) ^ d) {x : Fin d → ℝ} (hlo : ∀ a, lo a + r + dx / k ≤ x a)
    (hhi : ∀ a, x a + r + dx / k ≤ lo a + L a) (hc : ∀ y : Fin d → ℝ, (∀ a, |y a - x a| < r) → c y) :
    LatticeNear (dx / k) r x (positions s) := by
  have hh : h = dx / k := by
    have h1 := b.ppc
    rw [hppc, ← mul_pow] at h1
    have := (pow_left_inj₀ (mul_pos b.pos (by exact_mod_cast hk)).le hdx.le hd).mp h1
    rw [eq_div_iff (by exact_mod_cast hk.ne'), this]
  rw [← hh] at hlo hhi ⊢
  have hpos := b.pos
  refine ⟨fun a => lo a + 1 / 2 * h, fun z hz => ?_, fun y hy _ => ?_⟩
  · refine List.count_eq_one_of_mem b.nodup ((b.mem _).mpr ⟨hc _ hz, fun a => (z a).toNat, ?_⟩)
    have hz0 : ∀ a, 0 ≤ z a := by
      intro a
      have h1 := (abs_lt.mp (hz a)).1
      have h2 := hlo a
      have h3 : 0 < h * ((z a : ℝ) + 1) := by nlinarith
      have h4 : (0 : ℝ) < (z a : ℝ) + 1 := pos_of_mul_pos_right h3 hpos.le
      have h5 : 0 < z a + 1 := by exact_mod_cast h4
      omega
    refine ⟨fun a => ?_, fun a => ?_⟩
    · have h1 := (abs_lt.mp (hz a)).2
      have h2 := hhi a
      have h3 := (b.fits a).2
      have h4 : 0 < h * ((n a : ℝ) - z a) := by nlinarith
      have h5 : (0 : ℝ) < (n a : ℝ) - z a := pos_of_mul_pos_right h4 hpos.le
      have h6 : z a < n a := by exact_mod_cast sub_pos.mp h5
      have := hz0 a
      show (z a).toNat < n a
      omega
    · have : (((z a).toNat : ℕ) : ℝ) = z a := by exact_mod_cast Int.toNat_of_nonneg (hz0 a)
      rw [this]; ring
  · obtain ⟨-, j, -, hj⟩ := (b.mem y).mp hy
    refine ⟨fun a => j a, ?_⟩
    funext a
    rw [hj a]; push_cast; ring

end sampled

end Verif.Props
