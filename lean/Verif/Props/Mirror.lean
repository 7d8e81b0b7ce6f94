import Verif.Lemmas.Mirror
import Verif.Props.Textbook
import Verif.Props.AnySvd
import Verif.Props.Mobilised

set_option linter.unusedSectionVars false
set_option linter.unusedSimpArgs false
set_option linter.unusedVariables false

/-!
# C106: a problem and its mirror image

`sg a = -1` means that direction `a` is reversed, `c` is an additional shift: `x ↦ c - x` in the reversed directions and
`x ↦ c + x` in the others.
-/

namespace Verif.Props
open Verif Matrix

/-! ### mirror images -/

section spec
variable {d : ℕ}

/-- Left and right, bottom and top, front and back exchanged. -/
def opposite : PlateType → PlateType
  | .left => .right
  | .right => .left
  | .bottom => .top
  | .top => .bottom
  | .front => .back
  | .back => .front

/-- The direction perpendicular to the wall. -/
def acrossAxis : PlateType → Fin (d + 2)
  | .left | .right => 0
  | .bottom | .top => 1
  | .front | .back => Fin.ofNat _ 2

/-- The direction in which the wall is bounded. -/
def boundedAxis : PlateType → Fin (d + 2)
  | .left | .right => 1
  | _ => 0

/-- A wall in the mirror. -/
def mirPlate (sg : Fin (d + 2) → ℤˣ) (c : Fin (d + 2) → ℝ) (p : Plate (d + 2)) : Plate (d + 2) :=
  { p with
    type := if sg (acrossAxis p.type) = -1 then opposite p.type else p.type
    pos := ((sg (acrossAxis p.type) : ℤ) : ℝ) * p.pos + c (acrossAxis p.type)
    lower := if sg (boundedAxis p.type) = -1 then c (boundedAxis p.type) - p.upper else c (boundedAxis p.type) + p.lower
    upper := if sg (boundedAxis p.type) = -1 then c (boundedAxis p.type) - p.lower else c (boundedAxis p.type) + p.upper
    vel := mirV sg p.vel
    velOrig := mirV sg p.velOrig }

/-- The set-up in the mirror, with the decomposition `svd'` and the distribution `sched'` to threads. -/
def mirSetup (sg : Fin d → ℤˣ) (c : Fin d → ℝ) (R : Setup d) (svd' : Matrix (Fin d) (Fin d) ℝ → Svd d)
    (sched' : ℕ → List (Particle d ℝ) → List (List (Particle d ℝ))) : Setup d :=
  { R with
    objs := R.objs.map (mirObj sg c)
    S := { R.S with ref := R.S.ref.map (mirX sg c) }
    svd := svd'
    sched := sched' }

/-- `w'` is the mirror image of `w`: particles, walls and the rows with mass of the grid file. -/
structure Mirrored (sg : Fin (d + 2) → ℤˣ) (c : Fin (d + 2) → ℝ) (w w' : World (d + 2)) : Prop where
  ps : w'.ps = w.ps.map (mirP sg c)
  plates : w'.plates = w.plates.map (mirPlate sg c)
  rows : ∀ X v M, M ≠ 0 → ((X, v, M) ∈ gridRows w ↔ (mirX sg c X, mirV sg v, M) ∈ gridRows w')

/-- The new simulation with the given particles, walls and gravity. -/
def newState (ps : List (Particle d ℝ)) (plates : List (Plate d)) (g : Fin d → ℝ) : LoopState d (World d) :=
  ⟨World.gridless ps plates, 0, 0, 0, g, []⟩

end spec

/-! ### walls -/

/-- What the treatment of walls has to do with the mirrored walls, for friction coefficients in `A`. -/
structure PlateMir {d : ℕ} (ops : PlateOps (d + 2)) (sg : Fin (d + 2) → ℤˣ) (c : Fin (d + 2) → ℝ) (A : Set ℝ) : Prop where
  inside : ∀ p X, ops.inside (mirPlate sg c p) (mirX sg c X) ↔ ops.inside p X
  rel : ∀ p : Plate (d + 2), ∀ fr ∈ A, ∀ r, ops.rel (mirPlate sg c p).type (mirPlate sg c p).bc fr (mirV sg r) =
    mirV sg (ops.rel p.type p.bc fr r)
  move : ∀ p dt f t, ops.move (mirPlate sg c p) dt f t = mirPlate sg c (ops.move p dt f t)
  friction : ∀ p dt f t, (ops.move p dt f t).friction = p.friction

lemma slide2_neg_left {fric : ℝ} (h : 0 ≤ fric) (t n : ℝ) : slide2 fric (-t) n = -slide2 fric t n := by
  unfold slide2
  rw [abs_neg]
  by_cases h0 : fric = 0
  · rw [if_pos h0, if_pos h0]
  rw [if_neg h0, if_neg h0]
  by_cases h1 : |t| < fric * |n|
  · rw [if_pos h1, if_pos h1, neg_zero]
  rw [if_neg h1, if_neg h1]
  rcases lt_trichotomy t 0 with h2 | h2 | h2
  · rw [if_pos (by linarith), if_neg (by linarith)]; ring
  · subst h2
    have : fric * |n| = 0 := le_antisymm (by simpa using h1) (by positivity)
    simp [this]
  · rw [if_neg (by linarith), if_pos h2]; ring

lemma slide2_neg_right (fric t n : ℝ) : slide2 fric t (-n) = slide2 fric t n := by
  unfold slide2; rw [abs_neg]

lemma sgn_neg' (x : ℝ) : sgn (-x) = -sgn x := by
  unfold sgn
  rcases lt_trichotomy x 0 with h | h | h
  · simp [h, h.le.not_gt]
  · simp [h]
  · simp [h, h.le.not_gt]

lemma slide3_n (fric a b n : ℝ) : slide3 fric a b (-n) = slide3 fric a b n := by
  unfold slide3; rw [abs_neg]

lemma slide3_a (fric a b n : ℝ) : slide3 fric (-a) b n = (-(slide3 fric a b n).1, (slide3 fric a b n).2) := by
  unfold slide3
  simp only [sgn_neg', neg_mul, mul_neg, neg_neg, neg_div]
  split_ifs <;> simp

lemma slide3_b (fric a b n : ℝ) : slide3 fric a (-b) n = ((slide3 fric a b n).1, -(slide3 fric a b n).2) := by
  unfold slide3
  simp only [sgn_neg', neg_mul, mul_neg, neg_neg, neg_div]
  split_ifs <;> simp

lemma plateMir2 (sg : Fin 2 → ℤˣ) (c : Fin 2 → ℝ) : PlateMir (d := 0) plateOps2 sg c (Set.Ici 0) := by
  constructor
  · rintro ⟨pos, type, bc, fr, lo, up, v, vo, vm, lf⟩ X
    rcases Int.units_eq_one_or (sg 0) with h0 | h0 <;> rcases Int.units_eq_one_or (sg 1) with h1 | h1 <;>
    cases type <;> simp [plateOps2, Plate.inside2, mirPlate, acrossAxis, boundedAxis, opposite, mirX, h0, h1] <;>
      constructor <;> rintro ⟨h1, h2, h3⟩ <;> refine ⟨?_, ?_, ?_⟩ <;> linarith
  · rintro ⟨pos, type, bc, fr, lo, up, v, vo, vm, lf⟩ f hf r
    have hs := slide2_neg_left (fric := f) hf
    rcases Int.units_eq_one_or (sg 0) with h0 | h0 <;> rcases Int.units_eq_one_or (sg 1) with h1 | h1 <;>
    cases type <;> cases bc <;>
      simp [plateOps2, plateRel2, mirPlate, acrossAxis, boundedAxis, opposite, mirV, h0, h1, hs, slide2_neg_right] <;>
      (try split_ifs) <;>
      (funext a; fin_cases a <;> simp [mirV, h0, h1])
  · intro p dt f t
    have hφ : (mirPlate (d := 0) sg c p).factor f t = p.factor f t := rfl
    simp only [plateOps2, Plate.move2, hφ]
    generalize p.factor f t = φ
    obtain ⟨pos, type, bc, fr, lo, up, v, vo, vm, lf⟩ := p
    have hv : (![mirV sg vo 0 * φ, mirV sg vo 1 * φ] : Fin 2 → ℝ) = mirV sg ![vo 0 * φ, vo 1 * φ] := by
      funext a; fin_cases a <;> simp [mirV, mul_assoc]
    rcases Int.units_eq_one_or (sg 0) with h0 | h0 <;> rcases Int.units_eq_one_or (sg 1) with h1 | h1 <;>
    cases type <;> simp [mirPlate, acrossAxis, boundedAxis, opposite, h0, h1, hv] <;> simp [mirV, h0, h1] <;>
      (try refine ⟨?_, ?_, ?_⟩) <;> ring
  · rintro ⟨pos, type, bc, fr, lo, up, v, vo, vm, lf⟩ dt f t
    cases type <;> rfl

lemma plateMir3 (sg : Fin 3 → ℤˣ) (c : Fin 3 → ℝ) : PlateMir (d := 1) plateOps3 sg c Set.univ := by
  have e2 : (Fin.ofNat (1 + 2) 2 : Fin 3) = 2 := rfl
  constructor
  · rintro ⟨pos, type, bc, fr, lo, up, v, vo, vm, lf⟩ X
    rcases Int.units_eq_one_or (sg 0) with h0 | h0 <;> rcases Int.units_eq_one_or (sg 1) with h1 | h1 <;>
    rcases Int.units_eq_one_or (sg 2) with h2 | h2 <;>
    cases type <;> simp [plateOps3, Plate.inside3, mirPlate, acrossAxis, boundedAxis, opposite, mirX, h0, h1, h2, e2] <;>
      constructor <;> (try rintro ⟨h1, h2, h3⟩) <;> (try refine ⟨?_, ?_, ?_⟩) <;> (try intro h) <;> linarith
  · rintro ⟨pos, type, bc, fr, lo, up, v, vo, vm, lf⟩ f hf r
    rcases Int.units_eq_one_or (sg 0) with h0 | h0 <;> rcases Int.units_eq_one_or (sg 1) with h1 | h1 <;>
    rcases Int.units_eq_one_or (sg 2) with h2 | h2 <;>
    cases type <;> cases bc <;>
      simp [plateOps3, plateRel3, mirPlate, acrossAxis, boundedAxis, opposite, mirV, h0, h1, h2, e2, slide3_a, slide3_b, slide3_n] <;>
      (try split_ifs) <;>
      (funext a; fin_cases a <;> simp [mirV, h0, h1, h2])
  · intro p dt f t
    have hφ : (mirPlate (d := 1) sg c p).factor f t = p.factor f t := rfl
    simp only [plateOps3, Plate.move3, hφ]
    generalize p.factor f t = φ
    obtain ⟨pos, type, bc, fr, lo, up, v, vo, vm, lf⟩ := p
    have hv : (![mirV sg vo 0 * φ, mirV sg vo 1 * φ, mirV sg vo 2 * φ] : Fin 3 → ℝ) = mirV sg ![vo 0 * φ, vo 1 * φ, vo 2 * φ] := by
      funext a; fin_cases a <;> simp [mirV, mul_assoc]
    rcases Int.units_eq_one_or (sg 0) with h0 | h0 <;> rcases Int.units_eq_one_or (sg 1) with h1 | h1 <;>
    rcases Int.units_eq_one_or (sg 2) with h2 | h2 <;>
    cases type <;> simp [mirPlate, acrossAxis, boundedAxis, opposite, h0, h1, h2, e2, hv] <;> simp [mirV, h0, h1, h2] <;>
      (try refine ⟨?_, ?_, ?_⟩) <;> ring

  · rintro ⟨pos, type, bc, fr, lo, up, v, vo, vm, lf⟩ dt f t
    cases type <;> rfl

/-! ### runs -/

section run
variable {d : ℕ} {R : Setup (d + 2)} {sg : Fin (d + 2) → ℤˣ} {c : Fin (d + 2) → ℝ} {A : Set ℝ}
  {svd' : Matrix (Fin (d + 2)) (Fin (d + 2)) ℝ → Svd (d + 2)}
  {sched' : ℕ → List (Particle (d + 2) ℝ) → List (List (Particle (d + 2) ℝ))}

local notation "R'" => mirSetup sg c R svd' sched'

lemma collidePlates_mir (hops : PlateMir R.ops sg c A) {fr : ℝ → ℝ} (X : Fin (d + 2) → ℝ) :
    ∀ (plates : List (Plate (d + 2))), (∀ p ∈ plates, fr p.friction ∈ A) → ∀ v,
    collidePlates R.ops.inside R.ops.rel fr (mirX sg c X) (plates.map (mirPlate sg c)) (mirV sg v) =
      mirV sg (collidePlates R.ops.inside R.ops.rel fr X plates v) := by
  intro plates
  unfold collidePlates
  induction plates with
  | nil => intro _ v; rfl
  | cons p ps ih =>
    intro hA v
    have hp := hA p List.mem_cons_self
    rw [List.map_cons, List.foldl_cons, List.foldl_cons, ← ih fun q hq => hA q (List.mem_cons_of_mem _ hq)]
    congr 1
    by_cases ho : R.ops.inside p X
    · rw [if_pos ho, if_pos ((hops.inside p X).mpr ho), mirV_add, ← hops.rel p _ hp, mirV_sub]
      rfl
    · rw [if_neg ho, if_neg fun h => ho ((hops.inside p X).mp h)]

lemma plasticUpdate_mirSvd (dt : ℝ) (q : Particle (d + 2) ℝ) :
    plasticUpdate (mirSetup sg c R (mirSvd sg R.svd) sched') dt (mirP sg c q) =
      (plasticUpdate R dt q).map (Prod.map (mirP sg c) id) := by
  have := plasticity_mir (sg := sg) (c := c) R.cabs R.svd R.m dt q false
  unfold plasticUpdate mirSetup
  simp only [this, Option.map_map]
  rfl

lemma plasticUpdate_mir (hsvd : BothSvd (mirSvd sg R.svd) svd') (dt : ℝ) (q : Particle (d + 2) ℝ) :
    plasticUpdate R' dt (mirP sg c q) = (plasticUpdate R dt q).map (Prod.map (mirP sg c) id) := by
  have := plasticUpdate_svd (R := mirSetup sg c R (mirSvd sg R.svd) sched') hsvd
  rw [← plasticUpdate_mirSvd (sched' := sched'), ← this]
  rfl

lemma plasticUpdate_mir_regular {q : Particle (d + 2) ℝ} (hq : q.F.det ≠ 0) (h1 : ∀ F, F.det ≠ 0 → IsSvd F (R.svd F))
    (h2 : ∀ F, F.det ≠ 0 → IsSvd F (svd' F)) (dt : ℝ) :
    plasticUpdate R' dt (mirP sg c q) = (plasticUpdate R dt q).map (Prod.map (mirP sg c) id) := by
  have hq' : (mirP sg c q).F.det ≠ 0 := by
    show (mirM sg q.F).det ≠ 0
    rw [mirM_det]; exact hq
  have h3 : IsSvd (mirP sg c q).F (mirSvd sg R.svd (mirP sg c q).F) := by
    show IsSvd (mirM sg q.F) (mirSvdOf sg (R.svd (mirM sg (mirM sg q.F))))
    rw [mirM_mirM]
    exact mirSvdOf_isSvd (h1 _ hq)
  have := C101_update (cabs := R.cabs) R.m dt (mirP sg c q) false hq' h3 (h2 _ hq')
  have := congrArg (Option.map fun t : Particle (d + 2) ℝ × ℕ × Bool => (t.1, t.2.2)) this
  rw [← plasticUpdate_mirSvd (sched' := sched')]
  simp only [Option.map_map, Function.comp_def] at this
  exact this

lemma schemeOf_mir (hops : PlateMir R.ops sg c A) (hc : R.S.changePos = false) (hd : R.S.P.deg ≠ .one)
    {plates : List (Plate (d + 2))} (hpl : R.S.P.useMibf = false → ∀ p ∈ plates, p.friction ∈ A) {o o' : Fin (d + 2) → ℝ}
    (ho : ∃ j : Fin (d + 2) → ℤ, ∀ a, o' a = ((sg a : ℤ) : ℝ) * o a + c a + j a * R.S.P.dx) (dt : ℝ) (g : Fin (d + 2) → ℝ) :
    MirScheme sg c A (schemeOf R o dt g plates) (schemeOf R' o' dt (mirV sg g) (plates.map (mirPlate sg c))) where
  deg := rfl
  odd := hd
  dx := rfl
  mass := rfl
  volume := rfl
  ratio := rfl
  musl := rfl
  mibf := rfl
  dt := rfl
  gravity := rfl
  wall := by
    intro μ hμ X v
    simp only [schemeOf, boundaryCollision]
    rw [← mirV_smul, mirX_add]
    show collidePlates R.ops.inside R.ops.rel _ _ _ (collideObjects _ _ (R.objs.map (mirObj sg c)) _) = _
    rw [collideObjects_mir]
    refine collidePlates_mir hops _ _ (fun p hp => ?_) _
    unfold wallFriction
    split_ifs with hm
    · exact hμ
    · exact hpl (Bool.not_eq_true _ ▸ hm) p hp
  place := by
    intro x
    simp only [schemeOf]
    rw [show (R').S.changePos = false from hc, hc]
    rfl
  lattice := ho

lemma maxSpeed_mir (vs : List (Fin (d + 2) → ℝ)) : maxSpeed (vs.map (mirV sg)) = maxSpeed vs := by
  have : maxElement (vs.map (mirV sg)) = (maxElement vs).map (mirV sg) := by
    cases vs with
    | nil => rfl
    | cons v vs =>
      simp only [maxElement, List.map_cons, Option.map_some, Option.some.injEq]
      induction vs generalizing v with
      | nil => rfl
      | cons u us ih =>
        rw [List.map_cons, List.foldl_cons, List.foldl_cons, mirV_dot, mirV_dot, ← ih]
        split_ifs <;> rfl
  rw [maxSpeed, maxSpeed, this, Option.map_map]
  congr 1
  funext v
  simp only [Function.comp, mirV_dot]

lemma mirX_inj {x y : Fin (d + 2) → ℝ} (h : mirX sg c x = mirX sg c y) : x = y := by
  rw [← mirV_mirX (sg := sg) (c := c) x, h, mirV_mirX]

lemma mirV_inj {x y : Fin (d + 2) → ℝ} (h : mirV sg x = mirV sg y) : x = y := by
  rw [← mirV_mirV (sg := sg) x, h, mirV_mirV]

/-- The nodes of a lattice in the mirror are those of the mirrored lattice. -/
lemma node_mir {S S' : Mpm.Scheme (d + 2)} (h : MirScheme sg c A S S') :
    (∀ k, ∃ k', S'.node k' = mirX sg c (S.node k)) ∧ ∀ k', ∃ k, S'.node k' = mirX sg c (S.node k) := by
  obtain ⟨j, hj⟩ := h.lattice
  constructor
  · intro k
    refine ⟨fun a => (sg a : ℤ) * k a - j a, ?_⟩
    funext a
    simp only [Mpm.Scheme.node, mirX, hj, h.dx]
    push_cast
    ring
  · intro k
    refine ⟨fun a => (sg a : ℤ) * (k a + j a), ?_⟩
    funext a
    simp only [Mpm.Scheme.node, mirX, hj, h.dx]
    push_cast
    have := sg_mul (sg := sg) a
    linear_combination (-(k a : ℝ) - j a) * S.dx * this

lemma coords_greatest (ref : Option (Fin (d + 2) → ℝ)) {xs : List (Fin (d + 2) → ℝ)} (hne : xs ≠ []) (a : Fin (d + 2)) :
    ∃ hi, IsGreatest (coords ref xs a) hi := by
  have hf : (coords ref xs a).Finite := by
    refine Set.Finite.subset ((xs.finite_toSet.image fun x => x a).union
      (Set.Subsingleton.finite (s := {y | ∃ r, ref = some r ∧ r a = y}) ?_)) ?_
    · rintro y ⟨r, hr, rfl⟩ z ⟨r', hr', rfl⟩
      rw [hr] at hr'
      rw [Option.some.inj hr']
    · rintro y (⟨x, hx, rfl⟩ | h)
      · exact .inl ⟨x, hx, rfl⟩
      · exact .inr h
  obtain ⟨x, hx⟩ := List.exists_mem_of_ne_nil _ hne
  obtain ⟨y, hy, hy2⟩ := Set.exists_max_image _ id hf ⟨x a, .inl ⟨x, hx, rfl⟩⟩
  exact ⟨y, hy, fun z hz => hy2 z hz⟩

/-- The corner of the mirrored cloud. -/
lemma corner_mir {ref : Option (Fin (d + 2) → ℝ)} {xs : List (Fin (d + 2) → ℝ)} {a : Fin (d + 2)} {lo hi lo' : ℝ}
    (hlo : IsLeast (coords ref xs a) lo) (hhi : IsGreatest (coords ref xs a) hi)
    (hlo' : IsLeast (coords (ref.map (mirX sg c)) (xs.map (mirX sg c)) a) lo') :
    lo' = c a + if sg a = -1 then -hi else lo := by
  refine hlo'.unique ?_
  have key : coords (ref.map (mirX sg c)) (xs.map (mirX sg c)) a = (fun y => ((sg a : ℤ) : ℝ) * y + c a) '' coords ref xs a := by
    ext y
    simp only [coords, Set.mem_ofPred_eq, Set.mem_image, List.mem_map, Option.map_eq_some_iff]
    constructor
    · rintro (⟨_, ⟨x, hx, rfl⟩, rfl⟩ | ⟨_, ⟨x, hx, rfl⟩, rfl⟩)
      · exact ⟨_, .inl ⟨x, hx, rfl⟩, rfl⟩
      · exact ⟨_, .inr ⟨x, hx, rfl⟩, rfl⟩
    · rintro ⟨_, ⟨x, hx, rfl⟩ | ⟨x, hx, rfl⟩, rfl⟩
      · exact .inl ⟨_, ⟨x, hx, rfl⟩, rfl⟩
      · exact .inr ⟨_, ⟨x, hx, rfl⟩, rfl⟩
  rw [key]
  rcases Int.units_eq_one_or (sg a) with h | h
  · rw [h, if_neg (by decide)]
    refine ⟨⟨lo, hlo.1, by simp [add_comm]⟩, ?_⟩
    rintro _ ⟨y, hy, rfl⟩
    have := hlo.2 hy
    simp; linarith
  · rw [h, if_pos rfl]
    refine ⟨⟨hi, hhi.1, by simp [add_comm]⟩, ?_⟩
    rintro _ ⟨y, hy, rfl⟩
    have := hhi.2 hy
    simp; linarith

lemma gridless_rows (ps : List (Particle (d + 2) ℝ)) (plates : List (Plate (d + 2))) : gridRows (World.gridless ps plates) = [] := by
  rw [gridRows_eq]
  rw [List.map_eq_nil_iff, List.eq_nil_iff_forall_not_mem]
  intro i hi
  have := mem_allNodes.mp hi 0
  simp [World.gridless, Axes.size] at this

variable {deg : Deg} {dx fr m vol : ℝ} {mibf : Bool} {i e : Bool} {fuel : ℕ}

/-- The general form. -/
lemma run_mir (hops : PlateMir R.ops sg c A) (hA0 : 0 ∈ A) (hP : R.S.P = mkTransferParams deg dx fr mibf m vol) (hd : deg ≠ .one)
    (hdx : 0 < dx) (hm : 0 < m) (hpbc : R.S.pbc = false) (hc : R.S.changePos = false)
    (hR : ∀ k ps, (R.sched k ps).flatten.Perm ps) (hR' : ∀ k ps, (sched' k ps).flatten.Perm ps)
    {ps : List (Particle (d + 2) ℝ)} (hne : ps ≠ []) {plates : List (Plate (d + 2))} {g : Fin (d + 2) → ℝ}
    (hpl : mibf = false → ∀ p ∈ plates, p.friction ∈ A)
    (hfr : mibf = true → FrictionIn R (newState ps plates g) A)
    (hlat : ∀ a, sg a = -1 → ∀ lo hi, IsLeast (coords R.S.ref (ps.map fun p => p.x) a) lo →
      IsGreatest (coords R.S.ref (ps.map fun p => p.x) a) hi → ∃ k : ℤ, hi = lo + k * dx)
    (hlaw : ∀ s1 dt g1 w, StepOf R (newState ps plates g) s1 dt g1 w →
      ∀ o, (∀ a, IsLeast (coords R.S.ref (ps.map fun p => p.x) a) (o a)) → ∀ p ∈ s1.w.ps,
      plasticUpdate R' dt (mirP sg c ((schemeOf R o dt g1 s1.w.plates).trial s1.w.ps p)) =
        (plasticUpdate R dt ((schemeOf R o dt g1 s1.w.plates).trial s1.w.ps p)).map (Prod.map (mirP sg c) id))
    {r : LoopState (d + 2) (World (d + 2))} (hfin : runProgram R i e fuel (newState ps plates g) = .finished r)
    (hub : runProgram R' i e fuel (newState (ps.map (mirP sg c)) (plates.map (mirPlate sg c)) (mirV sg g)) ≠ .ub) :
    ∃ r', runProgram R' i e fuel (newState (ps.map (mirP sg c)) (plates.map (mirPlate sg c)) (mirV sg g)) = .finished r' ∧
      r'.time = r.time ∧ r'.frame = r.frame ∧ r'.step = r.step ∧ Mirrored sg c r.w r'.w ∧
      List.Forall₂ (FileRel (Mirrored sg c)) r.out r'.out := by
  set s : LoopState (d + 2) (World (d + 2)) := newState ps plates g with hs
  set s' : LoopState (d + 2) (World (d + 2)) := newState (ps.map (mirP sg c)) (plates.map (mirPlate sg c)) (mirV sg g) with hs'
  have hPdx : R.S.P.dx = dx := by rw [hP]; rfl
  have hPdeg : R.S.P.deg = deg := by rw [hP]; rfl
  have hPm : R.S.P.useMibf = mibf := by rw [hP]; rfl
  have hacc : accepted i R.m.elastic R.m.plastic e = true := by
    by_contra hacc
    simp only [runProgram, if_neg hacc] at hfin
    cases hfin
  have hrun : ∀ (R : Setup (d + 2)) (s : LoopState (d + 2) (World (d + 2))), accepted i R.m.elastic R.m.plastic e = true →
      runProgram R i e fuel s = loop R.C (physics R) s.gravity fuel (begin R s) := by
    intro R s hacc
    simp only [runProgram, if_pos hacc]
    rw [simulate_eq hacc]
    rfl
  rw [hrun R _ hacc] at hfin
  rw [hrun R' _ hacc] at hub ⊢
  set rel : World (d + 2) → World (d + 2) → Prop := fun w w' => Mirrored sg c w w' ∧
    (mibf = false → ∀ p ∈ w.plates, p.friction ∈ A) with hrel
  have hrows : gridRows s.w = [] ∧ gridRows s'.w = [] := ⟨gridless_rows _ _, gridless_rows _ _⟩
  have hbegin : LoopRel (mirL sg) rel [] [] (begin R s) (begin R' s') := by
    have h0 : rel (fillMuI R.m R.S.P.useMibf s.w) (fillMuI R.m R.S.P.useMibf s'.w) := by
      have hr : ∀ (m : Material) (b : Bool) (w : World (d + 2)), gridRows (fillMuI m b w) = gridRows w := by
        intro m b w; unfold fillMuI; split_ifs <;> rfl
      have hp : ∀ (m : Material) (b : Bool) (w : World (d + 2)), (fillMuI m b w).plates = w.plates := by
        intro m b w; unfold fillMuI; split_ifs <;> rfl
      refine ⟨⟨?_, ?_, ?_⟩, ?_⟩
      · unfold fillMuI
        by_cases hu : R.S.P.useMibf = true
        · simp only [if_pos hu, hs, hs', newState, World.gridless, List.map_map]
          rfl
        · simp only [if_neg hu]
          rfl
      · rw [hp, hp]; rfl
      · intro X v M _
        rw [hr, hr, hrows.1, hrows.2]
        simp
      · rw [hp]; exact hpl
    simp only [begin, startState]
    rw [show (R').C = R.C from rfl]
    split_ifs
    · exact ⟨h0, rfl, rfl, rfl, rfl, _, _, rfl, rfl, .cons .info (.cons (.particles _ _ h0) .nil)⟩
    · exact ⟨h0, rfl, rfl, rfl, rfl, [], [], rfl, rfl, .nil⟩
  have key := loop_rel (C := R.C) (ph := physics R) (ph' := physics R') (gf := s.gravity) (γ := mirL sg) (rel := rel)
    (o := []) (o' := []) (s0 := begin R s) (s0' := begin R' s') ?_ ?_ fuel 0 0 _ _ r .start .start hbegin hfin hub
  · obtain ⟨r', h1, h2⟩ := key
    obtain ⟨l, l', e1, e2, e3⟩ := h2.out
    rw [List.nil_append] at e1 e2
    refine ⟨r', h1, h2.time, h2.frame, h2.step, h2.w.1, ?_⟩
    rw [e1, e2]
    refine e3.imp fun a b hab => ?_
    cases hab with
    | info => exact .info
    | particles n t h => exact .particles n t h.1
    | grid n t h => exact .grid n t h.1
    | timing n => exact .timing n
  · intro k k' s1 s1' dt g1 w ht hr' h
    have h1 := ht.2.2.1
    rw [updateDt_map (γ := mirL sg) (vs := (physics R).velocities s1.w), h1]
    · rfl
    · simp only [physics, h.1.ps, List.map_map]
      exact (maxSpeed_mir (sg := sg) (s1.w.ps.map fun p => p.v)).symm ▸ by rw [List.map_map]; rfl
  · intro k k' s1 s1' dt g1 w w' ex ht hr' h htime hstepno hst'
    obtain ⟨hmir, hplA⟩ := h
    have hphys : physStep R s1.w dt g1 s1.time s1.step = some (w, false) := ht.2.2.2
    have hphys' : physStep R' s1'.w dt (mirV sg g1) s1'.time s1'.step = some (w', ex) := hst'
    obtain ⟨bg, hbg, hbg2⟩ := physStep_choose hphys
    obtain ⟨bg', hbg', hbg2'⟩ := physStep_choose hphys'
    obtain ⟨o, ho1, ho2⟩ := reach_lattice (s := s) hPdx hdx hpbc rfl hne ht.1 hbg
    obtain ⟨o', ho1', ho2'⟩ := reach_lattice (R := R') (s := s') hPdx hdx hpbc rfl
      (by show ps.map _ ≠ []; simpa using hne) hr' hbg'
    have hstep := C105_step hP hd hdx hm hpbc (hR _) hphys (o := o) (by rw [hbg2]; exact ho2)
    have hstep' := C105_step (R := R') hP hd hdx hm hpbc (hR' _) hphys' (o := o') (by rw [hbg2']; exact ho2')
    have hj : ∃ j : Fin (d + 2) → ℤ, ∀ a, o' a = ((sg a : ℤ) : ℝ) * o a + c a + j a * R.S.P.dx := by
      rw [hPdx]
      suffices ∀ a, ∃ j : ℤ, o' a = ((sg a : ℤ) : ℝ) * o a + c a + j * dx by
        choose j hj using this
        exact ⟨j, hj⟩
      intro a
      have hx : (s'.w.ps.map fun p => p.x) = (ps.map fun p => p.x).map (mirX sg c) := by
        show (ps.map (mirP sg c)).map _ = _
        rw [List.map_map, List.map_map]; rfl
      obtain ⟨hi, hhi⟩ := coords_greatest R.S.ref (xs := ps.map fun p => p.x) (by simpa using hne) a
      have h1 := ho1' a
      rw [hx] at h1
      have h2 := corner_mir (ho1 a) hhi h1
      rcases Int.units_eq_one_or (sg a) with h3 | h3
      · rw [h3, if_neg (by decide)] at h2
        exact ⟨0, by rw [h2, h3]; simp [add_comm]⟩
      · rw [h3, if_pos rfl] at h2
        obtain ⟨k, hk⟩ := hlat a h3 _ _ (ho1 a) hhi
        refine ⟨-k, ?_⟩
        rw [h2, h3, hk]
        push_cast
        ring
    set S := schemeOf R o dt g1 s1.w.plates with hS
    set S' := schemeOf R' o' dt (mirV sg g1) s1'.w.plates with hS'
    have hmirS : MirScheme sg c A S S' := by
      rw [hS', hmir.plates]
      exact schemeOf_mir hops hc (by rw [hPdeg]; exact hd) (by rw [hPm]; exact hplA) hj dt g1
    have hAS : ∀ k, 0 < S.nodeMass s1.w.ps (S.node k) → S.nodeFriction s1.w.ps (S.node k) ∈ A := by
      intro k hk
      by_cases hb : mibf = true
      · obtain ⟨i, hi, e⟩ := hstep.2.2.2 k hk.ne'
        obtain ⟨-, e1, -, e2⟩ := hstep.2.2.1 i hi
        rw [← e, ← e2]
        exact (hfr hb).2 s1 dt g1 w ⟨_, ht⟩ i hi (by rw [e1, e]; exact hk)
      · unfold Mpm.Scheme.nodeFriction
        rw [if_neg (by show ¬ R.S.P.useMibf = true; rw [hPm]; exact hb)]
        exact hA0
    have hres := step_mir hmirS s1.w.ps hAS fun p hp => hlaw s1 dt g1 w ⟨_, ht⟩ o ho1 p hp
    rw [← hmir.ps, hstep.1, hstep'.1] at hres
    simp only [Option.map_some, Option.some.injEq, Prod.map_apply, id_eq, Prod.mk.injEq] at hres
    refine ⟨hres.2, ⟨hres.1, ?_, ?_⟩, ?_⟩
    · rw [hstep'.2.1, hstep.2.1, hmir.plates, htime, List.map_map, List.map_map]
      exact List.map_congr_left fun p _ => hops.move p _ _ _
    · intro X v M hM
      rw [gridRows_eq, gridRows_eq]
      simp only [List.mem_map, mem_allNodes, Prod.mk.injEq]
      obtain ⟨hn1, hn2⟩ := node_mir hmirS
      constructor
      · rintro ⟨i, hi, rfl, rfl, rfl⟩
        obtain ⟨⟨k, hk⟩, e1, e2, -⟩ := hstep.2.2.1 i hi
        obtain ⟨k', hk'⟩ := hn1 k
        have hmass : S'.nodeMass s1'.w.ps (S'.node k') = S.nodeMass s1.w.ps (S.node k) := by
          rw [hk', hmir.ps, nodeMass_mir hmirS]
        obtain ⟨i', hi', e'⟩ := hstep'.2.2.2 k' (by rw [hmass, ← hk, ← e1]; exact hM)
        obtain ⟨-, e1', e2', -⟩ := hstep'.2.2.1 i' hi'
        refine ⟨i', hi', ?_, ?_, ?_⟩
        · rw [e', hk', hk]
        · rw [e2', e', hk', hmir.ps, deforming_mir hmirS _ hAS, e2, hk]
        · rw [e1', e', hmass, e1, hk]
      · rintro ⟨i', hi', ex1, ex2, rfl⟩
        obtain ⟨⟨k', hk'⟩, e1', e2', -⟩ := hstep'.2.2.1 i' hi'
        obtain ⟨k, hk⟩ := hn2 k'
        have hX : X = S.node k := mirX_inj (sg := sg) (c := c) (by rw [← ex1, hk', hk])
        have hmass : S'.nodeMass s1'.w.ps (S'.node k') = S.nodeMass s1.w.ps (S.node k) := by
          rw [hk, hmir.ps, nodeMass_mir hmirS]
        obtain ⟨i, hi, e⟩ := hstep.2.2.2 k (by rw [← hmass, ← hk', ← e1']; exact hM)
        obtain ⟨-, e1, e2, -⟩ := hstep.2.2.1 i hi
        refine ⟨i, hi, ?_, ?_, ?_⟩
        · rw [e, hX]
        · rw [e2, e]
          apply mirV_inj (sg := sg)
          rw [← deforming_mir hmirS _ hAS, ← hk, ← hmir.ps, ← hk', ← e2', ex2]
        · rw [e1, e, ← hmass, e1', hk']
    · intro hb p hp
      rw [hstep.2.1] at hp
      obtain ⟨q, hq, rfl⟩ := List.mem_map.mp hp
      rw [hops.friction]
      exact hplA hb q hq

end run

/-- **C106** (2D) The mirror image of a problem. Both directions may be reversed (`sg`) and shifted (`c`), with all objects and
walls; in the reversed directions the extent of the initial cloud (with the reference point) is a whole number of cells. If the
run finishes, then so does the run of the mirrored problem (unless it gets out of its grid, C14), at the same times, and its
files are the mirror images: particles with all their data, walls, and the rows with mass of the grid files. The decomposition
and the distribution to threads of the mirrored run are arbitrary. -/
theorem C106_2d {R : Setup 2} (hops : R.ops = plateOps2) {sg : Fin 2 → ℤˣ} {c : Fin 2 → ℝ}
    {svd' : Matrix (Fin 2) (Fin 2) ℝ → Svd 2} (hsvd : BothSvd (mirSvd sg R.svd) svd')
    {sched' : ℕ → List (Particle 2 ℝ) → List (List (Particle 2 ℝ))}
    (hR : ∀ k ps, (R.sched k ps).flatten.Perm ps) (hR' : ∀ k ps, (sched' k ps).flatten.Perm ps)
    {deg : Deg} {dx fr m vol : ℝ} {mibf : Bool} {i e : Bool} {fuel : ℕ}
    (hP : R.S.P = mkTransferParams deg dx fr mibf m vol) (hd : deg ≠ .one) (hdx : 0 < dx) (hm : 0 < m)
    (hpbc : R.S.pbc = false) (hc : R.S.changePos = false)
    {ps : List (Particle 2 ℝ)} (hne : ps ≠ []) {plates : List (Plate 2)} {g : Fin 2 → ℝ}
    (hpl : mibf = false → ∀ p ∈ plates, 0 ≤ p.friction)
    (hfr : mibf = true → FrictionIn (d := 0) R (newState ps plates g) (Set.Ici 0))
    (hlat : ∀ a, sg a = -1 → ∀ lo hi, IsLeast (coords R.S.ref (ps.map fun p => p.x) a) lo →
      IsGreatest (coords R.S.ref (ps.map fun p => p.x) a) hi → ∃ k : ℤ, hi = lo + k * dx)
    {r : LoopState 2 (World 2)} (hfin : runProgram (d := 0) R i e fuel (newState ps plates g) = .finished r)
    (hub : runProgram (d := 0) (mirSetup sg c R svd' sched') i e fuel
      (newState (ps.map (mirP sg c)) (plates.map (mirPlate (d := 0) sg c)) (mirV sg g)) ≠ .ub) :
    ∃ r', runProgram (d := 0) (mirSetup sg c R svd' sched') i e fuel
        (newState (ps.map (mirP sg c)) (plates.map (mirPlate (d := 0) sg c)) (mirV sg g)) = .finished r' ∧
      r'.time = r.time ∧ r'.frame = r.frame ∧ r'.step = r.step ∧ Mirrored (d := 0) sg c r.w r'.w ∧
      List.Forall₂ (FileRel (Mirrored (d := 0) sg c)) r.out r'.out :=
  run_mir (d := 0) (A := Set.Ici 0) (by rw [hops]; exact plateMir2 sg c) (by simp) hP hd hdx hm hpbc hc hR hR' hne hpl hfr hlat
    (fun _ dt _ _ _ _ _ _ _ => plasticUpdate_mir hsvd dt _) hfin hub

/-- **C106** (3D) The same, for walls with any friction. -/
theorem C106_3d {R : Setup 3} (hops : R.ops = plateOps3) {sg : Fin 3 → ℤˣ} {c : Fin 3 → ℝ}
    {svd' : Matrix (Fin 3) (Fin 3) ℝ → Svd 3} (hsvd : BothSvd (mirSvd sg R.svd) svd')
    {sched' : ℕ → List (Particle 3 ℝ) → List (List (Particle 3 ℝ))}
    (hR : ∀ k ps, (R.sched k ps).flatten.Perm ps) (hR' : ∀ k ps, (sched' k ps).flatten.Perm ps)
    {deg : Deg} {dx fr m vol : ℝ} {mibf : Bool} {i e : Bool} {fuel : ℕ}
    (hP : R.S.P = mkTransferParams deg dx fr mibf m vol) (hd : deg ≠ .one) (hdx : 0 < dx) (hm : 0 < m)
    (hpbc : R.S.pbc = false) (hc : R.S.changePos = false)
    {ps : List (Particle 3 ℝ)} (hne : ps ≠ []) {plates : List (Plate 3)} {g : Fin 3 → ℝ}
    (hlat : ∀ a, sg a = -1 → ∀ lo hi, IsLeast (coords R.S.ref (ps.map fun p => p.x) a) lo →
      IsGreatest (coords R.S.ref (ps.map fun p => p.x) a) hi → ∃ k : ℤ, hi = lo + k * dx)
    {r : LoopState 3 (World 3)} (hfin : runProgram (d := 1) R i e fuel (newState ps plates g) = .finished r)
    (hub : runProgram (d := 1) (mirSetup sg c R svd' sched') i e fuel
      (newState (ps.map (mirP sg c)) (plates.map (mirPlate (d := 1) sg c)) (mirV sg g)) ≠ .ub) :
    ∃ r', runProgram (d := 1) (mirSetup sg c R svd' sched') i e fuel
        (newState (ps.map (mirP sg c)) (plates.map (mirPlate (d := 1) sg c)) (mirV sg g)) = .finished r' ∧
      r'.time = r.time ∧ r'.frame = r.frame ∧ r'.step = r.step ∧ Mirrored (d := 1) sg c r.w r'.w ∧
      List.Forall₂ (FileRel (Mirrored (d := 1) sg c)) r.out r'.out :=
  run_mir (d := 1) (A := Set.univ) (by rw [hops]; exact plateMir3 sg c) trivial hP hd hdx hm hpbc hc hR hR' hne
    (fun _ _ _ => trivial) (fun _ => ⟨fun _ _ _ _ _ _ _ _ _ _ => trivial, fun _ _ _ _ _ _ _ _ => trivial⟩) hlat
    (fun _ dt _ _ _ _ _ _ _ => plasticUpdate_mir hsvd dt _) hfin hub

end Verif.Props
