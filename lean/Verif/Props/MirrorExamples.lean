import Verif.Props.Symmetry
import Verif.Props.GridExamples

set_option linter.unusedSectionVars false
set_option linter.unusedSimpArgs false
set_option linter.unusedVariables false

/-!
# Examples for C106 and C108, and why the extent has to be a whole number of cells
-/

namespace Verif.Props
open Verif Matrix

namespace RunEx
noncomputable section

lemma bothSvd_mir {d : ℕ} (sg : Fin d → ℤˣ) {svd : Matrix (Fin d) (Fin d) ℝ → Svd d} (h : ∀ F, IsSvd F (svd F)) :
    BothSvd (mirSvd sg svd) fun F => if F.det = 0 then mirSvd sg svd F else svd F := by
  intro F
  refine ⟨fun hF => ⟨?_, by simpa only [if_neg hF] using h F⟩, fun hF => if_pos hF⟩
  have := mirSvdOf_isSvd (sg := sg) (h (mirM sg F))
  rw [mirM_mirM] at this
  exact this

/-- A run of one frame, with the grid file. -/
lemma finished_of {R : Setup 2} {fr : ℝ} {musl mibf : Bool} (hC : R.C = cfg 1)
    (hS : R.S = ⟨mkTransferParams .two 1 fr mibf 3 1, musl, false, false, 1, none⟩)
    (hsched : ∀ k ps, (R.sched k ps).flatten.Perm ps) (hrob : Robust R) (hnf : NeverFails R.m)
    (hel : R.m.elastic = .hencky)
    {ps : List (Particle 2 ℝ)} (hne : ps ≠ []) (hv : ∀ p ∈ ps, p.v = 0) (g : Fin 2 → ℝ) (pl : List (Plate 2)) :
    ∃ r, runProgram (d := 0) R true false 10 (newState ps pl g) = .finished r ∧
      ∃ t w, .grid 1 t w ∈ r.out ∧ .particles 1 t w ∈ r.out := by
  have hcrit := only_begin_of (R := R) hC hne hv g (pl := pl)
  obtain ⟨r, h1, -, t, w, h2, -⟩ := C61_completes (R := R) (s := start ps g pl) (deg := .two) (dx := 1)
    (fr := fr) (m := 3) (vol := 1) (i := true) (e := false) (fuel := 10)
    (by rw [hS]) one_pos (by rw [hS]) rfl hne hsched hrob hnf
    (by rw [hel]; rfl)
    (by rw [hC]; norm_num [cfg, exConfig]) (by norm_num) (by rw [hC]; norm_num [cfg, exConfig])
    (by rw [hC]; norm_num [cfg, exConfig]) (by rw [hC]; rfl) (by rw [hC]; norm_num [cfg, exConfig])
    (fun k s1 hr hk => absurd (hcrit k s1 hr) hk.ne')
  refine ⟨r, h1, t 1, w 1, ?_⟩
  rw [h2, hC]
  simp [frameFiles, cfg, exConfig]

/-- Left and right exchanged. -/
def flipX : Fin 2 → ℤˣ := ![-1, 1]

/-- The set-up of the examples in the mirror. -/
def mirrored (musl : Bool) (c : Fin 2 → ℝ) : Setup 2 :=
  mirSetup flipX c (setup musl 1 .vm) (fun F => if F.det = 0 then mirSvd flipX someSvd F else someSvd F) fun _ ps => ps.map fun p => [p]

lemma singletons_flatten {α : Type*} (l : List α) : (l.map fun p => [p]).flatten = l := by
  induction l with
  | nil => rfl
  | cons p ps ih => simp [ih]

lemma mirrored_run (musl : Bool) (c : Fin 2 → ℝ) {ps : List (Particle 2 ℝ)} (hne : ps ≠ []) (hv : ∀ p ∈ ps, p.v = 0) (g : Fin 2 → ℝ)
    (pl : List (Plate 2)) :
    ∃ r, runProgram (d := 0) (mirrored musl c) true false 10 (newState ps pl g) = .finished r ∧
      ∃ t w, .grid 1 t w ∈ r.out ∧ .particles 1 t w ∈ r.out :=
  finished_of (R := mirrored musl c) (fr := -19 / 20) (musl := musl) (mibf := false) rfl rfl
    (fun _ ps => by simp only [mirrored, mirSetup]; rw [singletons_flatten]) (.inl (.inr (.inl ⟨Ex.mat_ok _, rfl⟩))) (.inr (.inl rfl)) rfl hne hv g pl

lemma setup_run (musl : Bool) {ps : List (Particle 2 ℝ)} (hne : ps ≠ []) (hv : ∀ p ∈ ps, p.v = 0) (g : Fin 2 → ℝ)
    (pl : List (Plate 2)) :
    ∃ r, runProgram (d := 0) (setup musl 1 .vm) true false 10 (newState ps pl g) = .finished r ∧
      ∃ t w, .grid 1 t w ∈ r.out ∧ .particles 1 t w ∈ r.out :=
  finished_of (R := setup musl 1 .vm) (fr := -19 / 20) (musl := musl) (mibf := false) rfl rfl
    (fun _ _ => by simp [setup]) (.inl (.inr (.inl ⟨Ex.mat_ok _, rfl⟩))) (.inr (.inl rfl)) rfl hne hv g pl

/-- Two particles in the directions `0` and `1`. -/
lemma two_extent {x : ℝ} (hx : 0 ≤ x) {p q : Particle 2 ℝ} (hp : p.x = 0) (hq : q.x = ![x, 0]) :
    IsLeast (coords (none : Option (Fin 2 → ℝ)) ([p, q].map fun p => p.x) 0) 0 ∧
    IsGreatest (coords (none : Option (Fin 2 → ℝ)) ([p, q].map fun p => p.x) 0) x ∧
    IsLeast (coords (none : Option (Fin 2 → ℝ)) ([p, q].map fun p => p.x) 1) 0 := by
  refine ⟨⟨.inl ⟨0, by simp [hp], rfl⟩, ?_⟩, ⟨.inl ⟨![x, 0], by simp [hq], rfl⟩, ?_⟩, ⟨.inl ⟨0, by simp [hp], rfl⟩, ?_⟩⟩ <;>
  · rintro y (⟨z, hz, rfl⟩ | ⟨r, hr, _⟩)
    · simp only [hp, hq, List.map_cons, List.map_nil, List.mem_cons, List.not_mem_nil, or_false] at hz
      rcases hz with rfl | rfl <;> simp [hx]
    · cases hr

/-- A pair that falls on a tray, and the same in the mirror `x ↦ 7 - x`: the wall on the left is now on the right. -/
example (musl : Bool) : ∃ r r', runProgram (d := 0) (setup musl 1 .vm) true false 10 (newState pair tray ![0, -10]) = .finished r ∧
    runProgram (d := 0) (mirrored musl ![7, 0]) true false 10 (newState (pair.map (mirP flipX ![7, 0]))
      (tray.map (mirPlate (d := 0) flipX ![7, 0])) (mirV flipX ![0, -10])) = .finished r' ∧
    (∃ t w, .particles 1 t w ∈ r.out) ∧ List.Forall₂ (FileRel (Mirrored (d := 0) flipX ![7, 0])) r.out r'.out ∧
    (tray.map (mirPlate (d := 0) flipX ![7, 0])).map (fun p => (p.type, p.pos)) = [(.bottom, -1 / 2), (.right, 12)] := by
  obtain ⟨r, hr, t, w, -, hw⟩ := setup_run musl (ps := pair) (by simp [pair]) (fun p hp => (pair_rest p hp).1) ![0, -10] tray
  obtain ⟨r', hr', -⟩ := mirrored_run musl ![7, 0] (ps := pair.map (mirP flipX ![7, 0])) (by simp [pair])
    (fun p hp => by
      obtain ⟨q, hq, rfl⟩ := List.mem_map.mp hp
      show mirV flipX q.v = 0
      rw [(pair_rest q hq).1]; exact mirV_zero)
    (mirV flipX ![0, -10]) (tray.map (mirPlate (d := 0) flipX ![7, 0]))
  obtain ⟨r2, h1, -, -, -, -, h2⟩ := C106_2d (R := setup musl 1 .vm) (sg := flipX) (c := ![7, 0]) (deg := .two) (dx := 1) (fr := -19 / 20)
    (m := 3) (vol := 1) (mibf := false) rfl (bothSvd_mir flipX someSvd_isSvd) (fun _ _ => by simp [setup])
    (sched' := fun _ ps => ps.map fun p => [p]) (fun _ ps => by rw [singletons_flatten]) rfl (by simp) one_pos (by norm_num) rfl rfl
    (ps := pair) (by simp [pair]) (by simp [tray]) (by simp)
    (by
      intro a ha lo hi h1 h2
      have ha : a = 0 := by
        fin_cases a
        · rfl
        · simp [flipX] at ha
      subst ha
      obtain ⟨e1, e2, -⟩ := two_extent zero_le_one (p := Particle.init) (q := { Particle.init with x := ![1, 0], F := !![0, -1; 1, 0] })
        rfl rfl
      refine ⟨1, ?_⟩
      rw [h1.unique e1, h2.unique e2]; norm_num)
    hr (fun hh => by have := hr'.symm.trans hh; cases this)
  obtain rfl := Result.finished.inj (hr'.symm.trans h1)
  refine ⟨r, r', hr, hr', ⟨t, w, hw⟩, h2, ?_⟩
  simp [tray, mirPlate, acrossAxis, boundedAxis, opposite, flipX]
  norm_num

/-- Two equal particles at rest. -/
def twins (x : ℝ) : List (Particle 2 ℝ) := [Particle.init, { Particle.init with x := ![x, 0] }]

/-- A wall on the left and one on the right of the twins. -/
def cageL : Plate 2 := ⟨-1 / 2, .left, .slipFree, 1 / 2, -5, 5, 0, 0, 1, 0⟩
@[inherit_doc cageL] def cageR : Plate 2 := ⟨3 / 2, .right, .slipFree, 1 / 2, -5, 5, 0, 0, 1, 0⟩
@[inherit_doc cageL] def cage : List (Plate 2) := [cageL, cageR]

lemma twins_rest (x : ℝ) : ∀ p ∈ twins x, p.v = 0 ∧ p.Bmat = 0 ∧ p.tau = 0 ∧ p.F = 1 ∧ p.x 1 = 0 := by
  intro p hp
  simp only [twins, List.mem_cons, List.not_mem_nil, or_false] at hp
  rcases hp with rfl | rfl <;> exact ⟨rfl, rfl, rfl, rfl, by simp [Particle.init]⟩

/-- Top and bottom exchanged. -/
def flipY : Fin 2 → ℤˣ := ![1, -1]

section fall
variable {dt : ℝ}

/-- The scheme of the first step. -/
def fall (dt : ℝ) : Mpm.Scheme 2 := schemeOf (d := 0) (setup false 1 .vm) 0 dt ![0, -10] cage

lemma cage_pass (fr : ℝ → ℝ) (Y : Fin 2 → ℝ) (y : ℝ) : collidePlates plateOps2.inside plateOps2.rel fr Y cage ![0, y] = ![0, y] := by
  have h4 : ∀ (t : PlateType) (f y : ℝ), t = .left ∨ t = .right → plateOps2.rel t .slipFree f (![0, y] - 0) + 0 = ![0, y] := by
    rintro t f y (rfl | rfl) <;> simp [plateOps2, plateRel2]
  have h5 : ∀ (p : Prop) {_ : Decidable p} (t : PlateType) (f y : ℝ), t = .left ∨ t = .right →
      (if p then plateOps2.rel t .slipFree f (![0, y] - 0) + 0 else ![0, y]) = ![0, y] := by
    intro p _ t f y ht
    split_ifs
    · exact h4 t f y ht
    · rfl
  simp only [collidePlates, cage, cageL, cageR, List.foldl_cons, List.foldl_nil]
  rw [h5 _ _ _ _ (.inl rfl), h5 _ _ _ _ (.inr rfl)]

lemma fall_after (x : ℝ) (X : Fin 2 → ℝ) : (fall dt).after (twins x) X = if 0 < (fall dt).nodeMass (twins x) X then ![0, -10 * dt] else 0 := by
  unfold Mpm.Scheme.after
  by_cases h : 0 < (fall dt).nodeMass (twins x) X
  · rw [if_pos h, if_pos h]
    have hnear : ∀ p ∈ (fall dt).near (twins x) X, p ∈ twins x := fun p hp => List.mem_of_mem_filter hp
    have h1 : (fall dt).before (twins x) X = 0 := by
      unfold Mpm.Scheme.before Mpm.Scheme.nodeMomentum
      rw [if_pos h, List.map_congr_left (g := fun _ => 0), List.map_const', List.sum_replicate, smul_zero, smul_zero]
      intro p hp
      obtain ⟨e1, e2, -⟩ := twins_rest x p (hnear p hp)
      unfold Mpm.Scheme.affine
      rw [e1, e2]
      simp
    have h2 : (fall dt).nodeForce (twins x) X = 0 := by
      unfold Mpm.Scheme.nodeForce
      rw [List.map_congr_left (g := fun _ => 0), List.map_const', List.sum_replicate, smul_zero, neg_zero]
      intro p hp
      obtain ⟨-, -, e1, -⟩ := twins_rest x p (hnear p hp)
      rw [e1]
      simp
    rw [h1, h2, smul_zero, zero_add, zero_add]
    have h3 : (fall dt).dt • (fall dt).gravity = ![0, -10 * dt] := by
      funext a; fin_cases a
      · simp [fall, schemeOf]
      · simp [fall, schemeOf]; ring
    rw [h3]
    exact cage_pass _ _ _
  · rw [if_neg h, if_neg h]

lemma flipY_shape (X : Fin 2 → ℝ) {x : Fin 2 → ℝ} (hx : x 1 = 0) (dx : ℝ) :
    shape .two dx (mirV flipY X) x = shape .two dx X x ∧ shapeGrad .two dx (mirV flipY X) x = mirV flipY (shapeGrad .two dx X x) := by
  have e : ∀ y : Fin 2 → ℝ, mirX flipY 0 y = mirV flipY y := fun y => by funext a; simp [mirX, mirV]
  have e2 : mirV flipY x = x := by funext a; fin_cases a <;> simp [mirV, flipY, hx]
  have h1 := shape_mir (sg := flipY) (c := 0) (deg := .two) (by simp) dx X x
  have h2 := shapeGrad_mir (sg := flipY) (c := 0) (deg := .two) (by simp) dx X x
  rw [e, e, e2] at h1 h2
  exact ⟨h1, h2⟩

lemma fall_mass (x : ℝ) (X : Fin 2 → ℝ) : (fall dt).nodeMass (twins x) (mirV flipY X) = (fall dt).nodeMass (twins x) X := by
  have h : ∀ p ∈ twins x, shape (fall dt).deg (fall dt).dx (mirV flipY X) p.x = shape (fall dt).deg (fall dt).dx X p.x :=
    fun p hp => (flipY_shape X (twins_rest x p hp).2.2.2.2 1).1
  have h1 := h _ List.mem_cons_self
  have h2 := h _ (List.mem_cons_of_mem _ List.mem_cons_self)
  simp only [Mpm.Scheme.nodeMass, Mpm.Scheme.near, twins, List.filter_cons, List.filter_nil, h1, h2]
  split_ifs <;> simp only [List.map_cons, List.map_nil, h1, h2]

lemma finsum_mul_invol (f : (Fin 2 → ℤ) → Matrix (Fin 2) (Fin 2) ℝ) {Q : Matrix (Fin 2) (Fin 2) ℝ} (hQ : Q * Q = 1) :
    ∑ᶠ k, f k * Q = (∑ᶠ k, f k) * Q := by
  have hinj : Function.Injective (AddMonoidHom.mulRight Q : Matrix (Fin 2) (Fin 2) ℝ →+ _) := fun u v e => by
    have : u * Q * Q = v * Q * Q := congrArg (· * Q) e
    rwa [Matrix.mul_assoc, hQ, Matrix.mul_one, Matrix.mul_assoc, hQ, Matrix.mul_one] at this
  exact ((AddMonoidHom.mulRight Q).map_finsum_of_injective hinj f).symm

lemma finsum_invol_mul (f : (Fin 2 → ℤ) → Matrix (Fin 2) (Fin 2) ℝ) {Q : Matrix (Fin 2) (Fin 2) ℝ} (hQ : Q * Q = 1) :
    ∑ᶠ k, Q * f k = Q * ∑ᶠ k, f k := by
  have hinj : Function.Injective (AddMonoidHom.mulLeft Q : Matrix (Fin 2) (Fin 2) ℝ →+ _) := fun u v e => by
    have : Q * (Q * u) = Q * (Q * v) := congrArg (Q * ·) e
    rwa [← Matrix.mul_assoc, hQ, Matrix.one_mul, ← Matrix.mul_assoc, hQ, Matrix.one_mul] at this
  exact ((AddMonoidHom.mulLeft Q).map_finsum_of_injective hinj f).symm

lemma fall_grad (x : ℝ) {y : Fin 2 → ℝ} (hy : y 1 = 0) :
    (fall dt).grad ((fall dt).after (twins x)) y 0 0 = 0 ∧ (fall dt).grad ((fall dt).after (twins x)) y 0 1 = 0 ∧
    (fall dt).grad ((fall dt).after (twins x)) y 1 1 = 0 := by
  set V := (fall dt).after (twins x) with hV
  set G := (fall dt).grad V y with hG
  have hGdef : G = ∑ᶠ k, vecMulVec (V ((fall dt).node k)) (shapeGrad .two 1 ((fall dt).node k) y) := rfl
  have hnode : ∀ k : Fin 2 → ℤ, (fall dt).node k = fun a => (k a : ℝ) := fun k => by
    funext a; simp [Mpm.Scheme.node, fall, schemeOf, setup, mkTransferParams]
  have hV0 : ∀ X, V X 0 = 0 := fun X => by
    rw [hV, fall_after]; split_ifs <;> simp
  have hVY : ∀ X, V (mirV flipY X) = V X := fun X => by
    rw [hV, fall_after, fall_after, fall_mass]
  have h1 : !![-1, 0; 0, 1] * G = G := by
    rw [hGdef, ← finsum_invol_mul _ (by ext a b; fin_cases a <;> fin_cases b <;> simp [Matrix.mul_apply, Fin.sum_univ_two])]
    congr 1
    funext k
    ext a b
    fin_cases a <;> simp [Matrix.mul_apply, Fin.sum_univ_two, vecMulVec_apply, hV0]
  have h2 : G * !![1, 0; 0, -1] = G := by
    let e : (Fin 2 → ℤ) ≃ (Fin 2 → ℤ) :=
      ⟨fun k => ![k 0, -k 1], fun k => ![k 0, -k 1], fun k => by funext a; fin_cases a <;> simp,
        fun k => by funext a; fin_cases a <;> simp⟩
    have hen : ∀ k, (fall dt).node (e k) = mirV flipY ((fall dt).node k) := fun k => by
      rw [hnode, hnode]; funext a; fin_cases a <;> simp [e, mirV, flipY]
    conv_rhs => rw [hGdef, ← finsum_comp_equiv e]
    rw [hGdef, ← finsum_mul_invol _ (by ext a b; fin_cases a <;> fin_cases b <;> simp [Matrix.mul_apply, Fin.sum_univ_two])]
    congr 1
    funext k
    rw [hen, hVY, (flipY_shape _ hy 1).2]
    ext a b
    fin_cases b <;> simp [Matrix.mul_apply, Fin.sum_univ_two, vecMulVec_apply, mirV, flipY]
  have e1 := congrFun (congrFun h1 0) 0
  have e2 := congrFun (congrFun h1 0) 1
  have e3 := congrFun (congrFun h2 1) 1
  simp [Matrix.mul_apply, Fin.sum_univ_two] at e1 e2 e3
  exact ⟨by linarith, by linarith, by linarith⟩

lemma fall_det (x : ℝ) : ∀ p ∈ twins x, ((fall dt).trial (twins x) p).F.det ≠ 0 := by
  intro p hp
  obtain ⟨-, -, -, hF, hy⟩ := twins_rest x p hp
  obtain ⟨e1, e2, e3⟩ := fall_grad (dt := dt) x hy
  have hd : (fall dt).deforming (twins x) = (fall dt).after (twins x) := by
    funext X
    unfold Mpm.Scheme.deforming
    rw [if_neg (by simp [fall, schemeOf, setup])]
  have : ((fall dt).trial (twins x) p).F = (1 + dt • (fall dt).grad ((fall dt).after (twins x)) p.x) := by
    show (1 + (fall dt).dt • (fall dt).grad ((fall dt).deforming (twins x)) p.x) * p.F = _
    rw [hF, hd, Matrix.mul_one]; rfl
  rw [this, Matrix.det_fin_two]
  simp [e1, e2, e3]

end fall

lemma twins_invertible : Invertible (d := 0) (setup false 1 .vm) (twins 1) cage ![0, -10] := by
  intro s1 dt g1 w hst o ho
  have hg := hst.gravity_at
  obtain ⟨k, hr, -⟩ := hst
  have hk := only_begin false (by simp [twins]) (fun p hp => (twins_rest 1 p hp).1) ![0, -10] (pl := cage) k s1 hr
  subst hk
  cases hr
  obtain ⟨c1, -, c2⟩ := two_extent zero_le_one (p := Particle.init) (q := { Particle.init with x := ![1, 0] }) rfl rfl
  have ho : o = 0 := by
    funext a; fin_cases a
    · exact (ho 0).unique c1
    · exact (ho 1).unique c2
  have h1 : (begin (setup false 1 .vm) (newState (twins 1) cage ![0, -10])).w.ps = twins 1 := by
    rw [begin_w]; simp [fillMuI, setup, newState, World.gridless, mkTransferParams]
  have h2 : (begin (setup false 1 .vm) (newState (twins 1) cage ![0, -10])).w.plates = cage := by
    rw [begin_w]; simp [fillMuI, setup, newState, World.gridless, mkTransferParams]
  rw [h1, h2, ho, hg, show gravityAt (d := 0) (setup false 1 .vm) (newState (twins 1) cage ![0, -10]).gravity _ = ![0, -10] from
    if_neg (by simp [setup, cfg])]
  exact fall_det 1

lemma cage_order (f : ℝ) : ∀ ms, SameOrder plateOps2.inside (movedWalls plateOps2 f cage ms) (movedWalls plateOps2 f (pick [1, 0] cage) ms) := by
  have h1 : ∀ m : ℝ × ℝ, plateOps2.move cageL m.1 f m.2 =
      cageL := fun m => by
    simp [plateOps2, Plate.move2, cageL, cageR]
  have h2 : ∀ m : ℝ × ℝ, plateOps2.move cageR m.1 f m.2 =
      cageR := fun m => by
    simp [plateOps2, Plate.move2, cageL, cageR]
  have h3 : ∀ ms, movedWalls plateOps2 f cage ms = cage ∧ movedWalls plateOps2 f (pick [1, 0] cage) ms = pick [1, 0] cage := by
    intro ms
    induction ms with
    | nil => exact ⟨rfl, rfl⟩
    | cons m ms ih =>
      have e : cage.map (fun p => plateOps2.move p m.1 f m.2) = cage := by
        simp only [cage, List.map_cons, List.map_nil, h1, h2]
      simp only [movedWalls, ← pick_map, e]
      exact ih
  intro ms X
  rw [(h3 ms).1, (h3 ms).2]
  rw [show pick [1, 0] cage = [cageR, cageL]
    from rfl, cage]
  by_cases hl : plateOps2.inside cageL X <;>
  by_cases hr : plateOps2.inside cageR X
  · simp only [plateOps2, Plate.inside2, cageL, cageR] at hl hr
    linarith [hl.2.2, hr.2.2]
  all_goals simp [List.filter_cons, hl, hr]

/-- The twins, `[1, 0]` exchanges them. -/
lemma twins_symmetric (x : ℝ) : (twins x).map (mirP flipX ![x, 0]) = pick [1, 0] (twins x) := by
  have hF : mirM flipX (1 : Matrix (Fin 2) (Fin 2) ℝ) = 1 := by
    ext a b; fin_cases a <;> fin_cases b <;> simp [mirM, flipX]
  have e1 : mirX flipX ![x, 0] 0 = ![x, 0] := by funext a; fin_cases a <;> simp [mirX, flipX]
  have e2 : mirX flipX ![x, 0] ![x, 0] = 0 := by funext a; fin_cases a <;> simp [mirX, flipX]
  simp only [twins, pick, Particle.init, mirP, List.map_cons, List.map_nil, hF, e1, e2, mirV_zero, mirM_zero]
  rfl

/-- Twins that fall between two walls. -/
example : ∃ r, runProgram (d := 0) (setup false 1 .vm) true false 10 (newState (twins 1) cage ![0, -10]) = .finished r ∧
    (∃ t w, .grid 1 t w ∈ r.out) ∧
    ∀ n t w, (.particles n t w ∈ r.out ∨ .grid n t w ∈ r.out) → SymmetricState (d := 0) flipX ![1, 0] [1, 0] [1, 0] w := by
  obtain ⟨r, hr, t, w, hw, -⟩ := setup_run false (ps := twins 1) (by simp [twins]) (fun p hp => (twins_rest 1 p hp).1) ![0, -10] cage
  refine ⟨r, hr, ⟨t, w, hw⟩, C108_2d (R := setup false 1 .vm) (sg := flipX) (c := ![1, 0]) (deg := .two) (dx := 1) (fr := -19 / 20)
    (m := 3) (vol := 1) (mibf := false) rfl (fun _ _ => by simp [setup]) rfl (by simp) one_pos (by norm_num) rfl rfl
    (by simp [twins]) (by simp [cage, cageL, cageR]) (by simp) ?_ (fun F _ => someSvd_isSvd F) twins_invertible
    ⟨fun _ => rfl, rfl, ?_, ?_, twins_symmetric 1, ?_, cage_order _⟩ hr⟩
  · intro a ha lo hi h1 h2
    have ha : a = 0 := by
      fin_cases a
      · rfl
      · simp [flipX] at ha
    subst ha
    obtain ⟨e1, e2, -⟩ := two_extent zero_le_one (p := Particle.init) (q := { Particle.init with x := ![1, 0] }) rfl rfl
    refine ⟨1, ?_⟩
    rw [h1.unique e1, h2.unique e2]; norm_num
  · funext a; fin_cases a <;> simp [mirV, flipX]
  · exact List.Perm.swap 0 1 []
  · have e0 : mirV flipX (0 : Fin 2 → ℝ) = 0 := mirV_zero
    simp only [cage, cageL, cageR, pick, List.map_cons, List.map_nil, mirPlate, acrossAxis, boundedAxis, opposite, e0]
    simp [flipX]
    norm_num

/-- The rows of the grid file of frame 1 lie on the lattice through the corner of the initial cloud. -/
lemma rows_lattice {R : Setup 2} {fr : ℝ} {musl mibf : Bool} (hS : R.S = ⟨mkTransferParams .two 1 fr mibf 3 1, musl, false, false, 1, none⟩)
    (hsched : ∀ k ps, (R.sched k ps).flatten.Perm ps) {ps : List (Particle 2 ℝ)} (hne : ps ≠ []) {g : Fin 2 → ℝ} {pl : List (Plate 2)}
    {o : Fin 2 → ℝ} (ho : ∀ a, IsLeast (coords (none : Option (Fin 2 → ℝ)) (ps.map fun p => p.x) a) (o a))
    {r : LoopState 2 (World 2)} (hfin : runProgram (d := 0) R true false 10 (newState ps pl g) = .finished r)
    {t : ℝ} {w : World 2} (hw : .grid 1 t w ∈ r.out) : ∀ X v M, (X, v, M) ∈ gridRows w → ∃ k : ℤ, X 0 = o 0 + k := by
  have hev : .grid 1 t w ∈ filesOf (runProgram (d := 0) R true false 10 (newState ps pl g)) := by rw [hfin]; exact hw
  obtain ⟨dts, ps', plates, t0, dt, -, -, -, h, -⟩ := C105_grid (d := 0) (R := R) (s := newState ps pl g) (deg := .two) (dx := 1) (fr := fr)
    (m := 3) (vol := 1) (mibf := mibf) (by rw [hS]) (by simp) one_pos (by norm_num) (by rw [hS]) rfl hne hsched (o := o)
    (by rw [hS]; exact ho) hev (by simp [newState])
  intro X v M hr
  obtain ⟨⟨k, hk⟩, -⟩ := h _ hr
  refine ⟨k 0, ?_⟩
  simp only at hk
  rw [hk]
  simp [Mpm.Scheme.node, schemeOf, hS, mkTransferParams]

end
end RunEx

open RunEx in
/-- **C108** Without the condition on the extent this is false: two equal particles at rest half a cell apart are symmetric, but their
grid file is not. It has a row with mass at the position of the first particle, and none at the position of the second. -/
theorem C108_lattice_false (musl : Bool) : ∃ r, runProgram (d := 0) (setup musl 1 .vm) true false 10 (newState (twins (1 / 2)) [] 0) = .finished r ∧
    (twins (1 / 2)).map (mirP flipX ![1 / 2, 0]) = pick [1, 0] (twins (1 / 2)) ∧
    ∃ t w X v M, .grid 1 t w ∈ r.out ∧ M ≠ 0 ∧ (X, v, M) ∈ gridRows w ∧ ∀ v' M', (mirX flipX ![1 / 2, 0] X, v', M') ∉ gridRows w := by
  obtain ⟨r, hr, t, w, hw, -⟩ := setup_run musl (ps := twins (1 / 2)) (by simp [twins]) (fun p hp => (twins_rest _ p hp).1) 0 []
  obtain ⟨c1, -, c2⟩ := two_extent (x := 1 / 2) (by norm_num) (p := Particle.init) (q := { Particle.init with x := ![1 / 2, 0] }) rfl rfl
  have ho : ∀ a, IsLeast (coords (none : Option (Fin 2 → ℝ)) ((twins (1 / 2)).map fun p => p.x) a) ((0 : Fin 2 → ℝ) a) := by
    intro a; fin_cases a
    · exact c1
    · exact c2
  have hlat := rows_lattice (R := setup musl 1 .vm) (fr := -19 / 20) (musl := musl) (mibf := false) rfl (fun _ _ => by simp [setup])
    (by simp [twins]) ho hr hw
  refine ⟨r, hr, twins_symmetric _, t, w, ?_⟩
  have hev : .grid 1 t w ∈ filesOf (runProgram (d := 0) (setup musl 1 .vm) true false 10 (newState (twins (1 / 2)) [] 0)) := by
    rw [hr]; exact hw
  obtain ⟨hpos, hmass, -⟩ := C77_mass (R := setup musl 1 .vm) (deg := .two) (dx := 1) (fr := -19 / 20) (m := 3) (vol := 1)
    (mibf := false) rfl one_pos (by norm_num) rfl (fun _ _ => by simp [setup]) hev (by simp [newState])
  obtain ⟨s1, dt, g, hst, -⟩ := run_grid hev (by simp [newState])
  have hlen : w.ps.length = 2 := by
    refine (run_inv (Inv := fun w _ _ _ => w.ps.length = 2) ?_ (fun s1 dt g w h hP => ?_) hst).2
    · rw [begin_w]; simp [fillMuI, setup, mkTransferParams, newState, World.gridless, twins]
    · rw [← (physStep_forall₂ h.phys).length_eq, hP]
  have hsum : 0 < ((gridRows w).map fun r => r.2.2).sum := lt_of_lt_of_le (by rw [hlen]; norm_num) hmass
  obtain ⟨⟨X, v, M⟩, hrow, hM⟩ : ∃ r ∈ gridRows w, r.2.2 ≠ 0 := by
    by_contra hc
    push Not at hc
    rw [List.map_congr_left hc] at hsum
    simp at hsum
  refine ⟨X, v, M, hw, hM, hrow, fun v' M' h => ?_⟩
  obtain ⟨k, hk⟩ := hlat _ _ _ hrow
  obtain ⟨j, hj⟩ := hlat _ _ _ h
  simp [mirX, flipX, hk] at hj
  have : ((2 * (j + k) : ℤ) : ℝ) = (1 : ℤ) := by push_cast; linarith
  have := Int.cast_injective this
  omega

open RunEx in
/-- **C106** The condition on the extent cannot be dropped either: in the mirror `x ↦ -x` the grid file of the same two particles is not the
mirror image. -/
theorem C106_lattice_false (musl : Bool) : ∃ r r',
    runProgram (d := 0) (setup musl 1 .vm) true false 10 (newState (twins (1 / 2)) [] 0) = .finished r ∧
    runProgram (d := 0) (mirrored musl 0) true false 10 (newState ((twins (1 / 2)).map (mirP flipX 0)) [] 0) = .finished r' ∧
    ∃ t w t' w' X v M, .grid 1 t w ∈ r.out ∧ .grid 1 t' w' ∈ r'.out ∧ M ≠ 0 ∧ (X, v, M) ∈ gridRows w ∧
      ∀ v' M', (mirX flipX 0 X, v', M') ∉ gridRows w' := by
  obtain ⟨r, hr, hsym, t, w, X, v, M, hw, hM, hrow, hno⟩ := C108_lattice_false musl
  obtain ⟨r', hr', t', w', hw', -⟩ := mirrored_run musl 0 (ps := (twins (1 / 2)).map (mirP flipX 0)) (by simp [twins])
    (fun p hp => by
      obtain ⟨q, hq, rfl⟩ := List.mem_map.mp hp
      show mirV flipX q.v = 0
      rw [(twins_rest _ q hq).1]; exact mirV_zero) 0 []
  obtain ⟨c1, -, c2⟩ := two_extent (x := 1 / 2) (by norm_num) (p := Particle.init) (q := { Particle.init with x := ![1 / 2, 0] }) rfl rfl
  have hlat := rows_lattice (R := setup musl 1 .vm) (fr := -19 / 20) (musl := musl) (mibf := false) rfl (fun _ _ => by simp [setup])
    (by simp [twins]) (o := 0) (fun a => by fin_cases a; exacts [c1, c2]) hr hw
  have ho' : ∀ a, IsLeast (coords (none : Option (Fin 2 → ℝ)) (((twins (1 / 2)).map (mirP flipX 0)).map fun p => p.x) a)
      ((![-1 / 2, 0] : Fin 2 → ℝ) a) := by
    intro a
    have hx : ((twins (1 / 2)).map (mirP flipX 0)).map (fun p => p.x) = [0, ![-1 / 2, 0]] := by
      have e1 : mirX flipX 0 0 = 0 := by funext a; fin_cases a <;> simp [mirX, flipX]
      have e2 : mirX flipX 0 ![1 / 2, 0] = ![-1 / 2, 0] := by funext a; fin_cases a <;> simp [mirX, flipX]; norm_num
      simp only [twins, Particle.init, mirP, List.map_cons, List.map_nil, e1, e2]
    rw [hx]
    refine ⟨.inl ⟨![-1 / 2, 0], by simp, rfl⟩, ?_⟩
    rintro y (⟨z, hz, rfl⟩ | ⟨q, hq, _⟩)
    · simp only [List.mem_cons, List.not_mem_nil, or_false] at hz
      rcases hz with rfl | rfl
      · fin_cases a <;> simp; norm_num
      · exact le_refl _
    · cases hq
  have hlat' := rows_lattice (R := mirrored musl 0) (fr := -19 / 20) (musl := musl) (mibf := false) rfl
    (fun _ ps => by simp only [mirrored, mirSetup]; rw [singletons_flatten]) (by simp [twins]) ho' hr' hw'
  refine ⟨r, r', hr, hr', t, w, t', w', X, v, M, hw, hw', hM, hrow, fun v' M' h => ?_⟩
  obtain ⟨k, hk⟩ := hlat _ _ _ hrow
  obtain ⟨j, hj⟩ := hlat' _ _ _ h
  simp [mirX, flipX, hk] at hj
  have : ((2 * (j + k) : ℤ) : ℝ) = (1 : ℤ) := by push_cast; linarith
  have := Int.cast_injective this
  omega

end Verif.Props
