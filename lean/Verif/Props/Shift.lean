import Verif.Lemmas.Simulate
import Verif.Lemmas.Remesh
import Verif.Props.Transfer
import Verif.Props.Order

set_option linter.unusedSimpArgs false
set_option linter.unusedVariables false
set_option linter.unusedSectionVars false

/-!
# C63: the origin of the coordinate system does not matter

Everything (particles, plates, objects, reference point) is moved by a constant vector.
-/

namespace Verif.Props
open Verif Matrix

/-! ### what it means to move something by `c` -/

/-- The particle moved by `c`. -/
def shiftP {d : ℕ} (c : Fin d → ℝ) (p : Particle d ℝ) : Particle d ℝ := { p with x := p.x + c }

/-- The grid coordinates moved by `c`. -/
def shiftAxes {d : ℕ} (c : Fin d → ℝ) (g : Axes d ℝ) : Axes d ℝ := fun a => (g a).map (· + c a)

/-- The remembered box moved by `c`. -/
def shiftBox (c : ℝ) (b : AxisInit ℝ) : AxisInit ℝ :=
  ⟨b.minInit + c, b.maxInit + c, b.lowInit + c, b.highInit + c⟩

/-- The object moved by `c`. -/
def shiftObj {d : ℕ} (c : Fin d → ℝ) (o : GenObject d) : GenObject d :=
  { o with inside := fun X => o.inside (X - c), normal := fun X => o.normal (X - c) }

/-- The wall moved by `c`, 2D: a vertical wall has its position along direction 0 and its ends along direction
1, a horizontal one conversely. -/
def shiftPlate2 (c : Fin 2 → ℝ) (p : Plate 2) : Plate 2 :=
  match p.type with
  | .left | .right => { p with pos := p.pos + c 0, lower := p.lower + c 1, upper := p.upper + c 1 }
  | .bottom | .top => { p with pos := p.pos + c 1, lower := p.lower + c 0, upper := p.upper + c 0 }
  | _ => p

/-- The wall moved by `c`, 3D. -/
def shiftPlate3 (c : Fin 3 → ℝ) (p : Plate 3) : Plate 3 :=
  match p.type with
  | .left | .right => { p with pos := p.pos + c 0, lower := p.lower + c 1, upper := p.upper + c 1 }
  | .bottom | .top => { p with pos := p.pos + c 1, lower := p.lower + c 0, upper := p.upper + c 0 }
  | .front | .back => { p with pos := p.pos + c 2 }

/-- The world moved by `c`; `sh` moves a wall. -/
def shiftWorld {d : ℕ} (c : Fin d → ℝ) (sh : Plate d → Plate d) (w : World d) : World d where
  ps := w.ps.map (shiftP c)
  box := w.box.map fun b a => shiftBox (c a) (b a)
  g := shiftAxes c w.g
  plates := w.plates.map sh
  mass := w.mass
  vel := w.vel
  friction := w.friction

/-- The set-up with objects and reference point moved by `c`. -/
def shiftSetup {d : ℕ} (c : Fin d → ℝ) (R : Setup d) : Setup d :=
  { R with objs := R.objs.map (shiftObj c), S := { R.S with ref := R.S.ref.map (· + c) } }

/-- What the treatment of walls has to do with moved walls. -/
structure PlateShift {d : ℕ} (ops : PlateOps d) (c : Fin d → ℝ) (sh : Plate d → Plate d) : Prop where
  inside : ∀ p X, ops.inside (sh p) (X + c) ↔ ops.inside p X
  type : ∀ p, (sh p).type = p.type
  bc : ∀ p, (sh p).bc = p.bc
  friction : ∀ p, (sh p).friction = p.friction
  vel : ∀ p, (sh p).vel = p.vel
  move : ∀ p dt f t, ops.move (sh p) dt f t = sh (ops.move p dt f t)

lemma plateShift2 (c : Fin 2 → ℝ) : PlateShift plateOps2 c (shiftPlate2 c) := by
  constructor
  · intro p X
    obtain ⟨pos, type, bc, fr, lo, up, v, vo, vm, lf⟩ := p
    cases type <;> simp [plateOps2, Plate.inside2, shiftPlate2]
  all_goals intro p; obtain ⟨pos, type, bc, fr, lo, up, v, vo, vm, lf⟩ := p
  · cases type <;> rfl
  · cases type <;> rfl
  · cases type <;> rfl
  · cases type <;> rfl
  · intro dt f t
    cases type <;> simp [plateOps2, Plate.move2, shiftPlate2, Plate.factor] <;> (try refine ⟨?_, ?_, ?_⟩) <;> ring

lemma plateShift3 (c : Fin 3 → ℝ) : PlateShift plateOps3 c (shiftPlate3 c) := by
  constructor
  · intro p X
    obtain ⟨pos, type, bc, fr, lo, up, v, vo, vm, lf⟩ := p
    cases type <;> simp [plateOps3, Plate.inside3, shiftPlate3]
  all_goals intro p; obtain ⟨pos, type, bc, fr, lo, up, v, vo, vm, lf⟩ := p
  · cases type <;> rfl
  · cases type <;> rfl
  · cases type <;> rfl
  · cases type <;> rfl
  · intro dt f t
    cases type <;> simp [plateOps3, Plate.move3, shiftPlate3, Plate.factor] <;> (try refine ⟨?_, ?_, ?_⟩) <;> ring

/-! ### grids -/

section grid

lemma arangeLoop_shift (c : ℝ) : ∀ (fuel : ℕ) (a b s : ℝ),
    arangeLoop fuel (a + c) (b + c) s = (arangeLoop fuel a b s).map (List.map (· + c)) := by
  intro fuel
  induction fuel with
  | zero => intro a b s; simp only [arangeLoop, add_lt_add_iff_right]; split_ifs <;> rfl
  | succ n ih =>
    intro a b s
    simp only [arangeLoop, add_lt_add_iff_right]
    split_ifs
    · rw [show a + c + s = (a + s) + c by ring, ih, Option.map_map, Option.map_map]
      rfl
    · rfl

lemma arange_shift (c a b s : ℝ) : arange (a + c) (b + c) s = (arange a b s).map (List.map (· + c)) := by
  rw [arange, arange, show b + c - (a + c) = b - a by ring, arangeLoop_shift]

lemma maxElem_shift (c : ℝ) (xs : List ℝ) : maxElem (xs.map (· + c)) = (maxElem xs).map (· + c) := by
  cases xs with
  | nil => rfl
  | cons x xs =>
    simp only [maxElem, List.map_cons, Option.map_some, Option.some.injEq]
    induction xs generalizing x with
    | nil => rfl
    | cons y ys ih => rw [List.map_cons, List.foldl_cons, List.foldl_cons, max_add_add_right, ih]

lemma minElem_shift (c : ℝ) (xs : List ℝ) : minElem (xs.map (· + c)) = (minElem xs).map (· + c) := by
  cases xs with
  | nil => rfl
  | cons x xs =>
    simp only [minElem, List.map_cons, Option.map_some, Option.some.injEq]
    induction xs generalizing x with
    | nil => rfl
    | cons y ys ih => rw [List.map_cons, List.foldl_cons, List.foldl_cons, min_add_add_right, ih]

lemma axisInit_shift (c dx : ℝ) (sf : ℕ) (ref : Option ℝ) (xs : List ℝ) :
    axisInit dx sf (ref.map (· + c)) (xs.map (· + c)) = (axisInit dx sf ref xs).map (shiftBox c) := by
  simp only [axisInit, maxElem_shift, minElem_shift, Option.bind_eq_bind]
  cases maxElem xs with
  | none => rfl
  | some mx =>
    cases minElem xs with
    | none => rfl
    | some mn =>
      have : withRef (ref.map (· + c)) (mn + c) (mx + c) = ((withRef ref mn mx).1 + c, (withRef ref mn mx).2 + c) := by
        cases ref with
        | none => rfl
        | some r =>
          simp only [withRef, Option.map_some, add_lt_add_iff_right, gt_iff_lt]
          split_ifs <;> rfl
      simp only [Option.map_some, Option.bind_some, this, shiftBox, Option.some.injEq, AxisInit.mk.injEq, true_and]
      constructor <;> ring

lemma axisInitNodes_shift (c dx : ℝ) (b : AxisInit ℝ) :
    axisInitNodes dx (shiftBox c b) = (axisInitNodes dx b).map (List.map (· + c)) := by
  rw [axisInitNodes, axisInitNodes, shiftBox, ← arange_shift, show b.highInit + c + dx = b.highInit + dx + c by ring]

lemma axisContNodes_shift (c dx : ℝ) (b : AxisInit ℝ) (xs : List ℝ) :
    axisContNodes dx (shiftBox c b) (xs.map (· + c)) = (axisContNodes dx b xs).map (List.map (· + c)) := by
  simp only [axisContNodes, maxElem_shift, minElem_shift, Option.bind_eq_bind]
  cases maxElem xs with
  | none => rfl
  | some mx =>
    cases minElem xs with
    | none => rfl
    | some mn =>
      have h1 : contHigh dx (shiftBox c b) (mx + c) = contHigh dx b mx + c := by
        simp only [contHigh, shiftBox, add_lt_add_iff_right, add_sub_add_right_eq_sub]
        split_ifs <;> ring
      have h2 : contLow dx (shiftBox c b) (mn + c) = contLow dx b mn + c := by
        simp only [contLow, shiftBox, gt_iff_lt, add_lt_add_iff_right, add_sub_add_right_eq_sub]
        split_ifs <;> ring
      simp only [Option.map_some, Option.bind_some, h1, h2, ← arange_shift]
      rw [show contHigh dx b mx + c + dx = contHigh dx b mx + dx + c by ring]

lemma sequenceFin_map {α β : Type*} : ∀ {d : ℕ} (h : Fin d → α → β) (f : Fin d → Option α),
    sequenceFin (fun a => (f a).map (h a)) = (sequenceFin f).map fun r a => h a (r a) := by
  intro d
  induction d with
  | zero => intro h f; simp only [sequenceFin, Option.map_some]; congr 1; exact Subsingleton.elim _ _
  | succ d ih =>
    intro h f
    simp only [sequenceFin, Option.bind_eq_bind]
    have := ih (fun a => h a.succ) (fun a => f a.succ)
    cases f 0 with
    | none => rfl
    | some a0 =>
      simp only [Option.map_some, Option.bind_some]
      have e1 : (Fin.tail fun a => (f a).map (h a)) = fun a => (f a.succ).map (h a.succ) := rfl
      have e2 : (Fin.tail f) = fun a => f a.succ := rfl
      rw [e1, this, e2]
      cases sequenceFin fun a : Fin d => f a.succ with
      | none => rfl
      | some r =>
        simp only [Option.map_some, Option.bind_some, Option.some.injEq]
        funext a
        refine Fin.cases ?_ (fun a => ?_) a <;> simp

variable {d : ℕ}

lemma chooseGrid_shift (c : Fin (d + 2) → ℝ) {S : StepParams (d + 2) ℝ} (hp : S.pbc = false)
    (ps : List (Particle (d + 2) ℝ)) (box : Option (Fin (d + 2) → AxisInit ℝ)) (g g' : Axes (d + 2) ℝ) (n : ℕ) :
    chooseGrid { S with ref := S.ref.map (· + c) }
        ⟨ps.map (shiftP c), box.map fun b a => shiftBox (c a) (b a), g', n⟩ =
      (chooseGrid S ⟨ps, box, g, n⟩).map
        (Prod.map (Option.map fun b a => shiftBox (c a) (b a)) (shiftAxes c)) := by
  have hx : ∀ a, ((ps.map (shiftP c)).map fun p => p.x).map (fun x => x a) =
      ((ps.map fun p => p.x).map fun x => x a).map (· + c a) := by
    intro a; simp [shiftP, Function.comp_def]
  have hr : ∀ a, (S.ref.map (· + c)).map (fun r => r a) = (S.ref.map fun r => r a).map (· + c a) := by
    intro a; cases S.ref <;> rfl
  simp only [chooseGrid, hp, Bool.false_eq_true, if_false]
  by_cases h0 : n = 0
  · simp only [if_pos h0, remeshInit, Option.bind_eq_bind, hr, hx, axisInit_shift]
    rw [sequenceFin_map (fun a => shiftBox (c a))]
    cases sequenceFin fun a => axisInit S.P.dx 2 (S.ref.map fun r => r a) ((ps.map fun p => p.x).map fun x => x a) with
    | none => rfl
    | some ai =>
      simp only [Option.map_some, Option.bind_some, axisInitNodes_shift]
      rw [sequenceFin_map (fun a => List.map (· + c a))]
      cases sequenceFin fun a => axisInitNodes S.P.dx (ai a) <;> rfl
  · simp only [if_neg h0]
    cases box with
    | none => rfl
    | some b =>
      simp only [Option.map_some, Option.bind_some, remeshCont, hx, axisContNodes_shift]
      rw [sequenceFin_map (fun a => List.map (· + c a))]
      cases sequenceFin fun a => axisContNodes S.P.dx (b a) ((ps.map fun p => p.x).map fun x => x a) <;> rfl

lemma shiftAxes_size (c : Fin d → ℝ) (g : Axes d ℝ) : (shiftAxes c g).size = g.size := by
  funext a; simp [Axes.size, shiftAxes]

lemma nodePosOf_shift (c : Fin d → ℝ) {g : Axes d ℝ} {i : Fin d → ℕ} (hi : ∀ a, i a < g.size a) :
    nodePosOf (shiftAxes c g) i = nodePosOf g i + c := by
  funext a
  have h := hi a
  simp only [Axes.size] at h
  simp [nodePosOf, shiftAxes, List.getD_eq_getElem?_getD, h]

/-- The stencil moved by `c`. -/
def shiftStencil (c : Fin d → ℝ) (s : Stencil d ℝ) : Stencil d ℝ := { s with xi := fun a i => s.xi a i + c a }

lemma mkStencil_shift (c : Fin d → ℝ) (deg : Deg) (o : ℝ) (g : Axes d ℝ) (b : Fin d → ℕ) (x : Fin d → ℝ) :
    mkStencil deg o (shiftAxes c g) b (x + c) = (mkStencil deg o g b x).map (shiftStencil c) := by
  unfold mkStencil
  by_cases h : ∀ a, b a + 3 < (g a).length
  · have h' : ∀ a, b a + 3 < (shiftAxes c g a).length := fun a => by simpa [shiftAxes] using h a
    rw [dif_pos h, dif_pos h']
    simp [shiftStencil, shiftAxes]
  · have h' : ¬ ∀ a, b a + 3 < (shiftAxes c g a).length := fun h' => h fun a => by simpa [shiftAxes] using h' a
    rw [dif_neg h, dif_neg h']
    rfl

lemma baseInt_shift (c o : ℝ) (l : List ℝ) (x : ℝ) : baseInt o (l.map (· + c)) (x + c) = baseInt o l x := by
  cases l <;> simp [baseInt]

lemma stencilP2G_shift (c : Fin d → ℝ) (deg : Deg) (o : ℝ) (g : Axes d ℝ) (x : Fin d → ℝ) :
    stencilP2G deg o (shiftAxes c g) (x + c) = (stencilP2G deg o g x).map (shiftStencil c) := by
  have : baseP2G o (shiftAxes c g) (x + c) = baseP2G o g x := by
    funext a
    simp only [baseP2G, shiftAxes, Pi.add_apply, baseInt_shift]
  rw [stencilP2G, stencilP2G, this]
  cases sequenceFin (baseP2G o g x) with
  | none => rfl
  | some b => exact mkStencil_shift c deg o g b x

lemma stencilG2P_shift (c : Fin d → ℝ) (deg : Deg) (o : ℝ) (g : Axes d ℝ) (x : Fin d → ℝ) :
    stencilG2P deg o (shiftAxes c g) (x + c) = (stencilG2P deg o g x).map (shiftStencil c) := by
  have : baseG2P o (shiftAxes c g) (x + c) = baseG2P o g x := by
    funext a
    simp only [baseG2P, shiftAxes, Pi.add_apply, baseInt_shift]
  rw [stencilG2P, stencilG2P, this]
  cases sequenceFin (baseG2P o g x) with
  | none => rfl
  | some b => exact mkStencil_shift c deg o g b x

/-- Mapping the input of `mapM`. -/
lemma mapM_map_map {α α' β β' : Type*} {f : α → Option β} {f' : α' → Option β'} {u : α → α'} {v : β → β'}
    (h : ∀ a, f' (u a) = (f a).map v) : ∀ l : List α, (l.map u).mapM f' = (l.mapM f).map (List.map v) := by
  intro l
  induction l with
  | nil => rfl
  | cons a l ih =>
    rw [List.map_cons, List.mapM_cons, List.mapM_cons, h, ih]
    cases f a with
    | none => rfl
    | some b => cases l.mapM f <;> rfl

/-- A particle with its stencil, both moved by `c`. -/
def shiftPS (c : Fin d → ℝ) (ps : Particle d ℝ × Stencil d ℝ) : Particle d ℝ × Stencil d ℝ :=
  (shiftP c ps.1, shiftStencil c ps.2)

lemma withStencils_shift (c : Fin d → ℝ) {st st' : (Fin d → ℝ) → Option (Stencil d ℝ)}
    (h : ∀ x, st' (x + c) = (st x).map (shiftStencil c)) (ps : List (Particle d ℝ)) :
    withStencils st' (ps.map (shiftP c)) = (withStencils st ps).map (List.map (shiftPS c)) := by
  unfold withStencils
  refine mapM_map_map (fun p => ?_) ps
  show (st' (p.x + c)).map _ = _
  rw [h, Option.map_map, Option.map_map]
  rfl

lemma nodePos_shift (c : Fin d → ℝ) (s : Stencil d ℝ) (j : Fin d → Fin 4) (x : Fin d → ℝ) :
    (shiftStencil c s).nodePos j - (x + c) = s.nodePos j - x := by
  funext a; simp [Stencil.nodePos, shiftStencil]

lemma depositParticle_shift (c : Fin d → ℝ) (P : TransferParams ℝ) (n : Fin d → ℕ) (g : GridArr d ℝ)
    (ps : Particle d ℝ × Stencil d ℝ) : depositParticle P n g (shiftPS c ps) = depositParticle P n g ps := by
  unfold depositParticle
  congr 1
  funext g j
  have h := nodePos_shift c ps.2 j ps.1.x
  have hc : contribution P (shiftP c ps.1) (shiftStencil c ps.2) j = contribution P ps.1 ps.2 j := by
    show (⟨_, _ + (if _ then _ • (ps.1.Bmat *ᵥ ((shiftStencil c ps.2).nodePos j - (ps.1.x + c))) else 0), _, _⟩ : Cell d ℝ) = _
    rw [h]; rfl
  unfold depositAt shiftPS
  simp only [hc]
  rfl

lemma P2G_shift (c : Fin d → ℝ) (P : TransferParams ℝ) (g : Axes d ℝ) (ts : List (List (Particle d ℝ))) :
    P2G P (shiftAxes c g) (ts.map (List.map (shiftP c))) = P2G P g ts := by
  unfold P2G
  rw [mapM_map_map (f := withStencils (stencilP2G P.deg P.oneOverDx g)) (v := List.map (shiftPS c))
    (fun t => withStencils_shift c (fun x => stencilP2G_shift c _ _ g x) t) ts, shiftAxes_size]
  simp only [Option.bind_eq_bind]
  cases ts.mapM (withStencils (stencilP2G P.deg P.oneOverDx g)) with
  | none => rfl
  | some ss =>
    simp only [Option.map_some, Option.bind_some]
    congr 2
    unfold p2gAccumulate
    rw [List.foldl_map]
    congr 1
    funext a t
    simp only [threadLocal, List.foldl_map, depositParticle_shift]

lemma MUSL_shift (c : Fin d → ℝ) (P : TransferParams ℝ) (g : Axes d ℝ) (mass : ℕ → ℝ) (ts : List (List (Particle d ℝ))) :
    MUSL P (shiftAxes c g) mass (ts.map (List.map (shiftP c))) =
      (MUSL P g mass ts).map (Prod.map (List.map (List.map (shiftP c))) id) := by
  unfold MUSL
  have e : ((ts.map (List.map (shiftP c))).map fun t => t.map fun p => ({ p with v := blendVelocity P p } : Particle d ℝ)) =
      (ts.map fun t => t.map fun p => ({ p with v := blendVelocity P p } : Particle d ℝ)).map (List.map (shiftP c)) := by
    simp only [List.map_map, Function.comp_def]
    rfl
  simp only [e]
  rw [mapM_map_map (f := withStencils (stencilP2G P.deg P.oneOverDx g)) (v := List.map (shiftPS c))
    (fun t => withStencils_shift c (fun x => stencilP2G_shift c _ _ g x) t), shiftAxes_size]
  simp only [Option.bind_eq_bind]
  cases (ts.map fun t => t.map fun p => ({ p with v := blendVelocity P p } : Particle d ℝ)).mapM
    (withStencils (stencilP2G P.deg P.oneOverDx g)) with
  | none => rfl
  | some ss =>
    simp only [Option.map_some, Option.bind_some, Prod.map_apply, id_eq]
    congr 3
    unfold muslAccumulate
    rw [List.foldl_map]
    congr 1
    funext a t
    rw [List.foldl_map]
    congr 2
    funext g ps
    congr 1
    funext g j
    have h := nodePos_shift c ps.2 j ps.1.x
    have hx : (shiftP c ps.1).x = ps.1.x + c := rfl
    simp only [muslDepositAt, shiftPS, hx, h]
    rfl

end grid

/-! ### the constitutive update does not read or write the position -/

section plastic
variable {d : ℕ}

/-- The state with the particle moved by `c`. -/
def shiftSt (c : Fin d → ℝ) (st : PState d) : PState d := { st with q := shiftP c st.q }

lemma plastMCC_shift (c : Fin d → ℝ) (cabs : ℝ → ℝ) (m : Material) (dt : ℝ) (s : Svd d) (t : Trial d) (st : PState d) :
    plastMCC cabs m dt s t (shiftSt c st) = (plastMCC cabs m dt s t st).map (shiftSt c) := by
  obtain ⟨⟨x, v, pic, fl, F, Bm, tau, e1, e2, e3, dg, vis, mui⟩, h, n, e⟩ := st
  by_cases hm : m.useMibf = true
  all_goals
    simp only [plastMCC, shiftSt, shiftP, Option.bind_eq_bind, hm, if_true, if_false,
      Bool.false_eq_true]
    cases mccReturn cabs m d true m.M e2 (-m.K d * t.trace) (m.eMu * t.norm) e with
    | none => rfl
    | some r =>
      obtain ⟨pc, r⟩ := r
      simp only [Option.bind_some]
      by_cases hd : r.did = true
      · by_cases hv : m.plastic = .mccVisc
        · simp only [if_pos hd, if_pos hv]
          simp [Option.map_bind, Function.comp_def, shiftSt, shiftP]
        · simp only [if_pos hd, if_neg hv]
          simp [Option.map_bind, Function.comp_def, shiftSt, shiftP]
      · simp only [if_neg hd]
        rfl

lemma plastMCCMui_shift (c : Fin d → ℝ) (cabs : ℝ → ℝ) (m : Material) (dt : ℝ) (s : Svd d) (t : Trial d) (st : PState d) :
    plastMCCMui cabs m dt s t (shiftSt c st) = (plastMCCMui cabs m dt s t st).map (shiftSt c) := by
  obtain ⟨⟨x, v, pic, fl, F, Bm, tau, e1, e2, e3, dg, vis, mui⟩, h, n, e⟩ := st
  simp only [plastMCCMui, shiftSt, shiftP, Option.bind_eq_bind]
  cases mccReturn cabs m d false m.mu1 e2 (-m.K d * t.trace) (m.eMu * t.norm) e with
  | none => rfl
  | some r =>
    obtain ⟨pc, r⟩ := r
    simp only [Option.bind_some]
    by_cases hd : r.did = true
    · simp only [if_pos hd]
      by_cases hq : m.eMu * t.norm > r.q + m.stressTol
      · simp only [if_pos hq]
        cases m.hardening <;> simp [Option.map_bind, Function.comp_def, shiftSt, shiftP]
      · simp only [if_neg hq]
        rfl
    · simp only [if_neg hd]
      rfl

lemma plastModel_shift (c : Fin d → ℝ) (cabs : ℝ → ℝ) (m : Material) (dt : ℝ) (s : Svd d) (t : Trial d) (st : PState d) :
    plastModel cabs m dt s t (shiftSt c st) = (plastModel cabs m dt s t st).map (shiftSt c) := by
  unfold plastModel
  cases m.plastic <;> simp only
  case noPlasticity =>
    by_cases h : m.elastic = .neoHookean ∧ st.q.F.det ≤ 0
    · rw [if_pos h, if_pos (show m.elastic = .neoHookean ∧ (shiftSt c st).q.F.det ≤ 0 from h)]; rfl
    · rw [if_neg h, if_neg (show ¬ (m.elastic = .neoHookean ∧ (shiftSt c st).q.F.det ≤ 0) from h)]; rfl
  case mcc => exact plastMCC_shift ..
  case mccVisc => exact plastMCC_shift ..
  case mccMui => exact plastMCCMui_shift ..
  all_goals obtain ⟨⟨x, v, pic, fl, F, Bm, tau, e1, e2, e3, dg, vis, mui⟩, h, n, e⟩ := st
  case vm =>
    rw [Option.map_some]; congr 1
    simp only [plastVM, shiftSt, shiftP]
    split_ifs <;> rfl
  case dp =>
    rw [Option.map_some]; congr 1
    simp only [plastDP, shiftSt, shiftP]
    split_ifs <;> rfl
  case dpSoft =>
    rw [Option.map_some]; congr 1
    simp only [plastDPSoft, shiftSt, shiftP]
    split_ifs <;> rfl
  case vmVisc =>
    simp only [plastVMVisc, shiftSt, shiftP, Option.bind_eq_bind]
    by_cases h1 : -m.K d * t.trace < m.pMin * Real.exp (-m.xi * e2)
    · refine (if_pos h1).trans (Eq.trans ?_ (congrArg (Option.map (shiftSt c)) (if_pos h1)).symm)
      rfl
    refine (if_neg h1).trans (Eq.trans ?_ (congrArg (Option.map (shiftSt c)) (if_neg h1)).symm)
    by_cases h2 : m.eMu * t.norm > m.qMin + (m.qMax - m.qMin) * Real.exp (-m.xi * e1)
    · refine (if_pos h2).trans (Eq.trans ?_ (congrArg (Option.map (shiftSt c)) (if_pos h2)).symm)
      simp only [Option.map_bind, Function.comp_def, shiftSt, shiftP, Option.map_some]
    · refine (if_neg h2).trans (Eq.trans ?_ (congrArg (Option.map (shiftSt c)) (if_neg h2)).symm)
      rfl
  case dpVisc =>
    simp only [plastDPVisc, shiftSt, shiftP]
    split_ifs <;> simp [Option.map_bind, Function.comp_def, shiftSt, shiftP]
  case dpMui =>
    rw [Option.map_some]; congr 1
    simp only [plastDPMui, shiftSt, shiftP]
    split_ifs <;> rfl

lemma plasticity_shift (c : Fin d → ℝ) (cabs : ℝ → ℝ) (svd : Matrix (Fin d) (Fin d) ℝ → Svd d) (m : Material)
    (dt : ℝ) (q : Particle d ℝ) (e : Bool) :
    plasticity cabs svd m dt (shiftP c q) e = (plasticity cabs svd m dt q e).map (shiftSt c) := by
  unfold plasticity
  have := plastModel_shift c cabs m dt (svd q.F) (mkTrial (svd q.F).hencky) ⟨q, (svd q.F).hencky, 0, e⟩
  simp only [Option.bind_eq_bind]
  show Option.bind (plastModel cabs m dt (svd q.F) (mkTrial (svd q.F).hencky) (shiftSt c ⟨q, (svd q.F).hencky, 0, e⟩)) _ = _
  rw [this]
  cases plastModel cabs m dt (svd q.F) (mkTrial (svd q.F).hencky) ⟨q, (svd q.F).hencky, 0, e⟩ <;> rfl

end plastic

/-! ### a step and a run -/

section run
variable {d : ℕ} {R : Setup (d + 2)} {c : Fin (d + 2) → ℝ} {sh : Plate (d + 2) → Plate (d + 2)}

lemma boundaryCollision_shift (hsh : PlateShift R.ops c sh) (mibf : Bool) (fr : ℕ → ℝ) (dt : ℝ)
    (plates : List (Plate (d + 2))) (l : ℕ) (X v : Fin (d + 2) → ℝ) :
    boundaryCollision R.ops mibf fr dt (R.objs.map (shiftObj c)) (plates.map sh) l (X + c) v =
      boundaryCollision R.ops mibf fr dt R.objs plates l X v := by
  unfold boundaryCollision
  have hX : X + c + dt • v = (X + dt • v) + c := by abel
  simp only [hX]
  generalize X + dt • v = Y
  have h1 : collideObjects (wallFriction mibf fr l) (Y + c) (R.objs.map (shiftObj c)) v =
      collideObjects (wallFriction mibf fr l) Y R.objs v := by
    unfold collideObjects
    rw [List.foldl_map]
    congr 1
    funext v o
    have hY : Y + c - c = Y := by abel
    by_cases ho : o.inside Y
    · rw [if_pos ho]
      refine (if_pos (show o.inside (Y + c - c) by rwa [hY])).trans ?_
      simp only [shiftObj, hY]
    · rw [if_neg ho]
      exact if_neg (show ¬ o.inside (Y + c - c) by rwa [hY])
  rw [h1]
  unfold collidePlates
  rw [List.foldl_map]
  congr 1
  funext v p
  simp only [hsh.type, hsh.bc, hsh.friction, hsh.vel]
  by_cases ho : R.ops.inside p Y
  · rw [if_pos ho, if_pos ((hsh.inside p Y).mpr ho)]
  · rw [if_neg ho, if_neg (fun h => ho ((hsh.inside p Y).mp h))]

lemma eulerUpdate_shift (P : TransferParams ℝ) (dt : ℝ) (gr : Fin (d + 2) → ℝ)
    {bc bc' : ℕ → (Fin (d + 2) → ℝ) → (Fin (d + 2) → ℝ) → (Fin (d + 2) → ℝ)}
    (hbc : ∀ l X v, bc' l (X + c) v = bc l X v) (g : Axes (d + 2) ℝ) (arr : GridArr (d + 2) ℝ) :
    eulerUpdate P dt gr bc' (shiftAxes c g) arr = eulerUpdate P dt gr bc g arr := by
  unfold eulerUpdate
  rw [shiftAxes_size]
  have : ∀ L : List (Fin (d + 2) → ℕ), (∀ i ∈ L, ∀ a, i a < g.size a) → ∀ e,
      L.foldl (fun e i => eulerNode P dt gr bc' arr (flatIndex g.size i) (nodePosOf (shiftAxes c g) i) e) e =
      L.foldl (fun e i => eulerNode P dt gr bc arr (flatIndex g.size i) (nodePosOf g i) e) e := by
    intro L
    induction L with
    | nil => intro _ e; rfl
    | cons i L ih =>
      intro hL e
      rw [List.foldl_cons, List.foldl_cons, ih (fun j hj => hL j (List.mem_cons_of_mem _ hj)),
        nodePosOf_shift c (hL i List.mem_cons_self)]
      simp only [eulerNode, hbc]
  exact this _ (fun i hi => mem_allNodes.mp hi) _

lemma plasticUpdate_shift (c : Fin (d + 2) → ℝ) (dt : ℝ) (q : Particle (d + 2) ℝ) :
    plasticUpdate (shiftSetup c R) dt (shiftP c q) = (plasticUpdate R dt q).map (Prod.map (shiftP c) id) := by
  simp only [plasticUpdate, shiftSetup, plasticity_shift, Option.map_map]
  rfl

lemma g2pFull_shift (c : Fin (d + 2) → ℝ) (dt : ℝ) (g : Axes (d + 2) ℝ) (e : EulerArr (d + 2) ℝ) (ps : List (Particle (d + 2) ℝ)) :
    g2pFull (shiftSetup c R) dt (shiftAxes c g) e (ps.map (shiftP c)) =
      (g2pFull R dt g e ps).map (List.map (Prod.map (shiftP c) id)) := by
  simp only [g2pFull, Option.bind_eq_bind, shiftAxes_size]
  have hP : (shiftSetup c R).S.P = R.S.P := rfl
  rw [hP, withStencils_shift (st := stencilG2P R.S.P.deg R.S.P.oneOverDx g) c
    (fun x => stencilG2P_shift c _ _ g x) ps]
  cases withStencils (stencilG2P R.S.P.deg R.S.P.oneOverDx g) ps with
  | none => rfl
  | some qs =>
    simp only [Option.map_some, Option.bind_some]
    refine mapM_map_map (fun p => ?_) qs
    obtain ⟨p, s⟩ := p
    have hB : interpB g.size e.v (shiftStencil c s) (p.x + c) = interpB g.size e.v s p.x := by
      unfold interpB
      congr 1
      funext j
      rw [nodePos_shift]
      rfl
    have ht : g2pTransfer R.S.P g.size e (shiftP c p) (shiftStencil c s) = shiftP c (g2pTransfer R.S.P g.size e p s) := by
      simp only [g2pTransfer, shiftP, hB]
      rfl
    simp only [g2pFullParticle, shiftPS]
    by_cases hu : R.S.useMusl = true
    · rw [if_pos hu]
      refine (if_pos hu).trans ?_
      show some (g2pTransfer R.S.P g.size e (shiftP c p) (shiftStencil c s), false) = _
      rw [ht]; rfl
    · rw [if_neg hu, ← plasticUpdate_shift]
      refine (if_neg hu).trans ?_
      show plasticUpdate _ _ { g2pTransfer R.S.P g.size e (shiftP c p) (shiftStencil c s) with F := _ } = _
      rw [ht]; rfl

lemma deformFull_shift (c : Fin (d + 2) → ℝ) (dt : ℝ) (g : Axes (d + 2) ℝ) (v : ℕ → Fin (d + 2) → ℝ) (ps : List (Particle (d + 2) ℝ)) :
    deformFull (shiftSetup c R) dt (shiftAxes c g) v (ps.map (shiftP c)) =
      (deformFull R dt g v ps).map (List.map (Prod.map (shiftP c) id)) := by
  simp only [deformFull, Option.bind_eq_bind, shiftAxes_size]
  have hP : (shiftSetup c R).S.P = R.S.P := rfl
  rw [hP, withStencils_shift (st := stencilG2P R.S.P.deg R.S.P.oneOverDx g) c
    (fun x => stencilG2P_shift c _ _ g x) ps]
  cases withStencils (stencilG2P R.S.P.deg R.S.P.oneOverDx g) ps with
  | none => rfl
  | some qs =>
    simp only [Option.map_some, Option.bind_some]
    refine mapM_map_map (fun p => ?_) qs
    rw [deformFullParticle, deformFullParticle, ← plasticUpdate_shift]
    rfl

lemma physStep_shift (hsh : PlateShift R.ops c sh) (hR : ∀ k ps, (R.sched k ps).flatten.Perm ps)
    (hp : R.S.pbc = false) (hc : R.S.changePos = false) (w : World (d + 2)) (dt : ℝ) (g : Fin (d + 2) → ℝ) (t : ℝ) (n : ℕ) :
    physStep (shiftSetup c R) (shiftWorld c sh w) dt g t n =
      (physStep R w dt g t n).map (Prod.map (shiftWorld c sh) id) := by
  rw [physStep_eq, physStep_eq]
  have hp' : (shiftSetup c R).S.pbc = false := hp
  simp only [hp, hp', Bool.false_eq_true, if_false, ne_eq, not_true_eq_false, and_false, List.append_nil]
  have hg : chooseGrid (shiftSetup c R).S ⟨(shiftWorld c sh w).ps, (shiftWorld c sh w).box, (shiftWorld c sh w).g, n⟩ = _ :=
    chooseGrid_shift c hp w.ps w.box w.g _ n
  rw [hg]
  cases chooseGrid R.S ⟨w.ps, w.box, w.g, n⟩ with
  | none => rfl
  | some bg =>
    obtain ⟨box, gg⟩ := bg
    simp only [Option.map_some, Option.bind_some, Prod.map_apply]
    have h1 : P2G R.S.P (shiftAxes c gg) (R.sched n (w.ps.map (shiftP c))) = P2G R.S.P gg (R.sched n w.ps) := by
      rw [← P2G_shift c R.S.P gg]
      refine C03_p2g _ _ _ _ ((hR _ _).trans ?_)
      rw [← List.map_flatten]
      exact ((hR n w.ps).map _).symm
    have h1' : P2G (shiftSetup c R).S.P (shiftAxes c gg) ((shiftSetup c R).sched n (shiftWorld c sh w).ps) = _ := h1
    rw [h1']
    cases P2G R.S.P gg (R.sched n w.ps) with
    | none => rfl
    | some arr =>
      simp only [Option.bind_some, afterP2G]
      have he : eulerUpdate (shiftSetup c R).S.P dt g (boundaryCollision (shiftSetup c R).ops (shiftSetup c R).S.P.useMibf
          (fun l => (arr l).friction) dt (shiftSetup c R).objs (shiftWorld c sh w).plates) (shiftAxes c gg) arr = _ :=
        eulerUpdate_shift R.S.P dt g (fun l X v => boundaryCollision_shift hsh R.S.P.useMibf
          (fun l => (arr l).friction) dt w.plates l X v) gg arr
      rw [he]
      have hq : ∀ e, g2pFull (shiftSetup c R) dt (shiftAxes c gg) e (shiftWorld c sh w).ps = _ := fun e =>
        g2pFull_shift c dt gg e w.ps
      rw [hq]
      cases g2pFull R dt gg _ w.ps with
      | none => rfl
      | some qs =>
        simp only [Option.map_some, Option.bind_some]
        generalize (eulerUpdate R.S.P dt g (boundaryCollision R.ops R.S.P.useMibf (fun l => (arr l).friction) dt R.objs w.plates)
          gg arr).v = ev
        have hmid : (if (shiftSetup c R).S.useMusl = true then
            (MUSL (shiftSetup c R).S.P (shiftAxes c gg) (fun l => (arr l).mass)
              [(qs.map (Prod.map (shiftP c) id)).map (·.1)]).bind fun r =>
              (deformFull (shiftSetup c R) dt (shiftAxes c gg) r.2 r.1.flatten).map fun qs => (qs, r.2)
            else some (qs.map (Prod.map (shiftP c) id), ev)) =
            (if R.S.useMusl = true then (MUSL R.S.P gg (fun l => (arr l).mass) [qs.map (·.1)]).bind fun r =>
              (deformFull R dt gg r.2 r.1.flatten).map fun qs => (qs, r.2) else some (qs, ev)).map
              (Prod.map (List.map (Prod.map (shiftP c) id)) id) := by
          by_cases hu : R.S.useMusl = true
          · rw [if_pos hu]
            refine (if_pos hu).trans ?_
            have e1 : [(qs.map (Prod.map (shiftP c) id)).map (·.1)] = [qs.map (·.1)].map (List.map (shiftP c)) := by
              simp
            have hM : MUSL (shiftSetup c R).S.P (shiftAxes c gg) (fun l => (arr l).mass)
              [(qs.map (Prod.map (shiftP c) id)).map (·.1)] =
              (MUSL R.S.P gg (fun l => (arr l).mass) [qs.map (·.1)]).map (Prod.map (List.map (List.map (shiftP c))) id) := by
              rw [e1]
              exact MUSL_shift c R.S.P gg (fun l => (arr l).mass) [qs.map (·.1)]
            rw [hM]
            cases MUSL R.S.P gg (fun l => (arr l).mass) [qs.map (·.1)] with
            | none => rfl
            | some r =>
              simp only [Option.map_some, Option.bind_some, Prod.map_apply, id_eq]
              rw [Prod.map_fst, Prod.map_snd, ← List.map_flatten, deformFull_shift, Option.map_map, Option.map_map]
              rfl
          · rw [if_neg hu]
            exact (if_neg hu).trans rfl
        rw [hmid]
        cases (if R.S.useMusl = true then (MUSL R.S.P gg (fun l => (arr l).mass) [qs.map (·.1)]).bind fun r =>
              (deformFull R dt gg r.2 r.1.flatten).map fun qs => (qs, r.2) else some (qs, ev)) with
        | none => rfl
        | some qs' =>
          simp only [Option.map_some, Option.bind_some, Option.some.injEq, Prod.map_apply, id_eq]
          refine Prod.ext ?_ ?_
          · simp only [shiftWorld, shiftSetup, List.map_map, hp, hc]
            congr 1
            · rw [Prod.map_fst, List.map_map]
              refine List.map_congr_left fun q _ => ?_
              simp only [Function.comp, positionParticle, Prod.map_fst, shiftP, Bool.false_eq_true, if_false]
              congr 1
              abel
            · refine List.map_congr_left fun p _ => ?_
              exact hsh.move _ _ _ _
          · simp [List.any_map, Function.comp_def]

/-- The general form: `sh` moves a wall by `c`. -/
lemma run_shift (hsh : PlateShift R.ops c sh) (hR : ∀ k ps, (R.sched k ps).flatten.Perm ps)
    (hp : R.S.pbc = false) (hc : R.S.changePos = false) (i e : Bool) (fuel : ℕ) (s : LoopState (d + 2) (World (d + 2))) :
    runProgram (shiftSetup c R) i e fuel (s.map (shiftWorld c sh) id) =
      (runProgram R i e fuel s).map (shiftWorld c sh) id := by
  unfold runProgram
  have hm : (shiftSetup c R).m = R.m := rfl
  have hC : (shiftSetup c R).C = R.C := rfl
  have hP : (shiftSetup c R).S.P = R.S.P := rfl
  rw [hm, hC, hP]
  split_ifs with ha
  · have := simulate_map (C := R.C) (ph := physics R) (ph' := physics (shiftSetup c R)) (f := shiftWorld c sh)
      (γ := LinearMap.id) (Inv := fun _ => True)
      (fun w _ => by simp [physics, shiftWorld, shiftP, Function.comp_def])
      (fun w dt g t n _ => physStep_shift hsh hR hp hc w dt g t n) (fun _ _ _ _ _ _ _ _ => trivial)
      i R.m.elastic R.m.plastic e fuel { s with w := fillMuI R.m R.S.P.useMibf s.w } trivial
    have e1 : ∀ w : World (d + 2), fillMuI R.m R.S.P.useMibf (shiftWorld c sh w) = shiftWorld c sh (fillMuI R.m R.S.P.useMibf w) := by
      intro w
      unfold fillMuI shiftWorld
      by_cases hm : R.S.P.useMibf = true
      · simp only [if_pos hm, List.map_map]; rfl
      · simp only [if_neg hm]
    simp only [LoopState.map, LinearMap.id_coe, id_eq, e1] at this ⊢
    exact this
  · rfl

end run

/-- **C63** (2D) Moving the particles, walls, objects and the reference point by a constant vector `c` moves
everything in every file of the run by `c` and changes nothing else. -/
theorem C63_shift2 {R : Setup 2} (hops : R.ops = plateOps2) (hR : ∀ k ps, (R.sched k ps).flatten.Perm ps)
    (hp : R.S.pbc = false) (hc : R.S.changePos = false) (c : Fin 2 → ℝ) (i e : Bool) (fuel : ℕ)
    (s : LoopState 2 (World 2)) :
    runProgram (d := 0) (shiftSetup c R) i e fuel (s.map (shiftWorld c (shiftPlate2 c)) id) =
      (runProgram (d := 0) R i e fuel s).map (shiftWorld c (shiftPlate2 c)) id :=
  run_shift (by rw [hops]; exact plateShift2 c) hR hp hc i e fuel s

/-- **C63** (3D) -/
theorem C63_shift3 {R : Setup 3} (hops : R.ops = plateOps3) (hR : ∀ k ps, (R.sched k ps).flatten.Perm ps)
    (hp : R.S.pbc = false) (hc : R.S.changePos = false) (c : Fin 3 → ℝ) (i e : Bool) (fuel : ℕ)
    (s : LoopState 3 (World 3)) :
    runProgram (d := 1) (shiftSetup c R) i e fuel (s.map (shiftWorld c (shiftPlate3 c)) id) =
      (runProgram (d := 1) R i e fuel s).map (shiftWorld c (shiftPlate3 c)) id :=
  run_shift (by rw [hops]; exact plateShift3 c) hR hp hc i e fuel s

end Verif.Props
