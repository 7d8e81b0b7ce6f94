import Verif.Props.Order

set_option linter.unusedSimpArgs false
set_option linter.unusedVariables false

/-!
# C126: a particle is as good as several lighter ones at the same place
-/

namespace Verif.Props
open Verif Matrix

/-- Spec: every element `n` times in a row. -/
def copies {α : Type*} (n : ℕ) (l : List α) : List α := l.flatMap fun a => List.replicate n a

section copies
variable {α β : Type*} {n : ℕ}

lemma copies_nil : copies n ([] : List α) = [] := rfl

lemma copies_cons (a : α) (l : List α) : copies n (a :: l) = List.replicate n a ++ copies n l := by
  simp [copies]

lemma copies_map (f : α → β) (l : List α) : copies n (l.map f) = (copies n l).map f := by
  induction l with
  | nil => rfl
  | cons a l ih => rw [List.map_cons, copies_cons, copies_cons, ih, List.map_append, List.map_replicate]

lemma copies_append (l l' : List α) : copies n (l ++ l') = copies n l ++ copies n l' := by
  simp [copies]

lemma copies_filterMap (f : α → Option β) (l : List α) : (copies n l).filterMap f = copies n (l.filterMap f) := by
  induction l with
  | nil => rfl
  | cons a l ih =>
    rw [copies_cons, List.filterMap_append, ih, List.filterMap_cons]
    cases h : f a with
    | none => rw [List.filterMap_replicate_of_none h, List.nil_append]
    | some b => rw [List.filterMap_replicate_of_some h, copies_cons]

lemma mem_copies (hn : n ≠ 0) {a : α} {l : List α} : a ∈ copies n l ↔ a ∈ l := by
  simp [copies, hn]

lemma copies_any (hn : n ≠ 0) (f : α → Bool) (l : List α) : (copies n l).any f = l.any f := by
  rw [Bool.eq_iff_iff, List.any_eq_true, List.any_eq_true]
  exact ⟨fun ⟨x, hx, h⟩ => ⟨x, (mem_copies hn).mp hx, h⟩, fun ⟨x, hx, h⟩ => ⟨x, (mem_copies hn).mpr hx, h⟩⟩

lemma copies_eq_nil (hn : n ≠ 0) (l : List α) : copies n l = [] ↔ l = [] := by
  rw [List.eq_nil_iff_forall_not_mem, List.eq_nil_iff_forall_not_mem]
  simp only [mem_copies hn]

lemma copies_sum {M : Type*} [AddCommMonoid M] (l : List M) : (copies n l).sum = n • l.sum := by
  induction l with
  | nil => simp [copies_nil]
  | cons a l ih => rw [copies_cons, List.sum_append, ih, List.sum_replicate, List.sum_cons, nsmul_add]

lemma copies_mapM (hn : n ≠ 0) (f : α → Option β) (l : List α) : (copies n l).mapM f = (l.mapM f).map (copies n) := by
  induction l with
  | nil => rfl
  | cons a l ih =>
    rw [copies_cons, List.mapM_append, ih, List.mapM_cons]
    simp only [Option.bind_eq_bind, Option.pure_def]
    cases h : f a with
    | none =>
      have : (List.replicate n a).mapM f = none := mapM_none.mpr ⟨a, by simp [hn], h⟩
      rw [this]; rfl
    | some b =>
      have : ∀ k, (List.replicate k a).mapM f = some (List.replicate k b) := by
        intro k
        induction k with
        | zero => rfl
        | succ k ih => rw [List.replicate_succ, List.mapM_cons, h, ih]; rfl
      rw [this]
      simp only [Option.bind_some]
      cases l.mapM f with
      | none => rfl
      | some r => simp [copies_cons]

end copies

section invariance
variable {d : ℕ}

lemma maxElem_mem {xs ys : List ℝ} (h : ∀ a, a ∈ xs ↔ a ∈ ys) : maxElem xs = maxElem ys := by
  by_cases hx : xs = []
  · have hy : ys = [] := List.eq_nil_iff_forall_not_mem.mpr fun a ha => by subst hx; simpa using (h a).mpr ha
    rw [hx, hy]
  · have hy : ys ≠ [] := fun e => hx (List.eq_nil_iff_forall_not_mem.mpr fun a ha => by subst e; simpa using (h a).mp ha)
    obtain ⟨a, ha, h1, h2⟩ := maxElem_spec hx
    obtain ⟨b, hb, h3, h4⟩ := maxElem_spec hy
    rw [ha, hb, le_antisymm (h4 a ((h _).mp h1)) (h2 b ((h _).mpr h3))]

lemma minElem_mem {xs ys : List ℝ} (h : ∀ a, a ∈ xs ↔ a ∈ ys) : minElem xs = minElem ys := by
  by_cases hx : xs = []
  · have hy : ys = [] := List.eq_nil_iff_forall_not_mem.mpr fun a ha => by subst hx; simpa using (h a).mpr ha
    rw [hx, hy]
  · have hy : ys ≠ [] := fun e => hx (List.eq_nil_iff_forall_not_mem.mpr fun a ha => by subst e; simpa using (h a).mp ha)
    obtain ⟨a, ha, h1, h2⟩ := minElem_spec hx
    obtain ⟨b, hb, h3, h4⟩ := minElem_spec hy
    rw [ha, hb, le_antisymm (h2 b ((h _).mpr h3)) (h4 a ((h _).mp h1))]

lemma maxSpeed_mem {vs ws : List (Fin d → ℝ)} (h : ∀ a, a ∈ vs ↔ a ∈ ws) : maxSpeed vs = maxSpeed ws := by
  cases vs with
  | nil =>
    have hy : ws = [] := List.eq_nil_iff_forall_not_mem.mpr fun a ha => by simpa using (h a).mpr ha
    rw [hy]
  | cons v vs =>
    cases ws with
    | nil => exact absurd ((h v).mp (by simp)) (by simp)
    | cons w ws =>
      obtain ⟨a, ha⟩ : ∃ a, maxElement (v :: vs) = some a := ⟨_, rfl⟩
      obtain ⟨b, hb⟩ : ∃ b, maxElement (w :: ws) = some b := ⟨_, rfl⟩
      obtain ⟨h1, h2⟩ := maxElement_spec ha
      obtain ⟨h3, h4⟩ := maxElement_spec hb
      rw [maxSpeed, maxSpeed, ha, hb, Option.map_some, Option.map_some,
        le_antisymm (h4 a ((h _).mp h1)) (h2 b ((h _).mpr h3))]

lemma chooseGrid_copies {S S' : StepParams (d + 2) ℝ} (hdx : S'.P.dx = S.P.dx) (href : S'.ref = S.ref) (hpbc : S'.pbc = S.pbc)
    (hL : S'.L = S.L) {n : ℕ} (hn : n ≠ 0) (ps : List (Particle (d + 2) ℝ)) (box : Option (Fin (d + 2) → AxisInit ℝ))
    (g : Axes (d + 2) ℝ) (k : ℕ) : chooseGrid S' ⟨copies n ps, box, g, k⟩ = chooseGrid S ⟨ps, box, g, k⟩ := by
  have hx : ∀ a y, y ∈ (((copies n ps).map fun p => p.x).map fun x => x a) ↔ y ∈ ((ps.map fun p => p.x).map fun x => x a) := by
    intro a y
    rw [← copies_map, ← copies_map, mem_copies hn]
  have h1 : remeshInit S.P.dx S.ref ((copies n ps).map fun p => p.x) = remeshInit S.P.dx S.ref (ps.map fun p => p.x) := by
    simp only [remeshInit]
    congr 1
    congr 1
    funext a
    simp only [axisInit, maxElem_mem (hx a), minElem_mem (hx a)]
  have h2 : ∀ b, remeshCont S.P.dx b ((copies n ps).map fun p => p.x) = remeshCont S.P.dx b (ps.map fun p => p.x) := by
    intro b
    simp only [remeshCont]
    congr 1
    funext a
    simp only [axisContNodes, maxElem_mem (hx a), minElem_mem (hx a)]
  simp only [chooseGrid, hdx, href, hpbc, hL, h1, h2]

end invariance

/-! ### The transfers -/

/-- The parameters with particles of `c / n` of the mass and the volume. -/
noncomputable def lighter (n : ℕ) (c : ℝ) (P : TransferParams ℝ) : TransferParams ℝ :=
  { P with particleMass := c * P.particleMass / n, particleVolume := c * P.particleVolume / n }

/-- The grid with `c` times the mass and `n` times the (not yet multiplied by the volume) force. -/
noncomputable def heavier {d : ℕ} (n : ℕ) (c : ℝ) (arr : GridArr d ℝ) : GridArr d ℝ := fun l =>
  { arr l with mass := c * (arr l).mass, force := (n : ℝ) • (arr l).force }

section transfers
variable {d : ℕ} {n : ℕ} {c : ℝ}

lemma noFriction_of {P : TransferParams ℝ} {g : Axes d ℝ} (ts : List (List (Particle d ℝ × Stencil d ℝ))) (l : ℕ)
    (h : P.useMibf = false) : (p2gAccumulate P g.size ts l).friction = 0 := by
  rw [p2gAccumulate_eq, ← Cell.frictionHom_apply, map_list_sum, List.map_map]
  refine List.sum_eq_zero fun x hx => ?_
  obtain ⟨q, -, rfl⟩ := List.mem_map.mp hx
  show Cell.frictionHom (oneSum _ _ _ _) = 0
  rw [oneSum, map_sum]
  refine Finset.sum_eq_zero fun c _ => ?_
  split_ifs
  · simp [contribution, h]
  · exact map_zero _

lemma p2g_copies (hn : n ≠ 0) (P : TransferParams ℝ) (g : Axes d ℝ) {ts ts' : List (List (Particle d ℝ))}
    (h : ts'.flatten.Perm (copies n ts.flatten)) :
    P2G (lighter n c P) g ts' = (P2G P g ts).map (heavier n c) := by
  have hn' : (n : ℝ) ≠ 0 := Nat.cast_ne_zero.mpr hn
  have hnp : (0 : ℝ) < n := Nat.cast_pos.mpr (Nat.pos_of_ne_zero hn)
  unfold P2G
  rw [mapM_withStencils_cases, mapM_withStencils_cases]
  have hall : (∀ p ∈ ts'.flatten, (stencilP2G P.deg P.oneOverDx g p.x).isSome) ↔
      ∀ p ∈ ts.flatten, (stencilP2G P.deg P.oneOverDx g p.x).isSome := by
    have : ∀ p, p ∈ ts'.flatten ↔ p ∈ ts.flatten := fun p => h.mem_iff.trans (mem_copies hn)
    simp only [this]
  show (if ∀ p ∈ ts'.flatten, (stencilP2G P.deg P.oneOverDx g p.x).isSome then _ else none).bind _ = _
  by_cases hc : ∀ p ∈ ts.flatten, (stencilP2G P.deg P.oneOverDx g p.x).isSome
  · rw [if_pos hc, if_pos (hall.mpr hc)]
    simp only [Option.bind_eq_bind, Option.bind_some, Option.map_some]
    congr 1
    funext l
    have key : p2gAccumulate (lighter n c P) g.size
        (ts'.map fun t => t.map fun p => (p, (stencilP2G P.deg P.oneOverDx g p.x).getD ⟨0, 0, 0, 0⟩)) l =
        n • p2gAccumulate P g.size
          (ts.map fun t => t.map fun p => (p, (stencilP2G P.deg P.oneOverDx g p.x).getD ⟨0, 0, 0, 0⟩)) l := by
      rw [p2gAccumulate_eq, p2gAccumulate_eq, ← List.map_flatten, ← List.map_flatten, ← copies_sum, copies_map, copies_map]
      exact ((h.map _).map _).sum_eq
    show p2gFinish (lighter n c P) (p2gAccumulate (lighter n c P) g.size _) l = _
    unfold p2gFinish
    erw [key]
    have hfr := noFriction_of (P := P) (g := g) (ts.map fun t => t.map fun p => (p, (stencilP2G P.deg P.oneOverDx g p.x).getD ⟨0, 0, 0, 0⟩)) l
    generalize p2gAccumulate P g.size
      (ts.map fun t => t.map fun p => (p, (stencilP2G P.deg P.oneOverDx g p.x).getD ⟨0, 0, 0, 0⟩)) = A at hfr
    have e1 : (n • A l).mass = n * (A l).mass := by
      rw [← Cell.massHom_apply, map_nsmul, nsmul_eq_mul]; rfl
    have e2 : (n • A l).v = (n : ℝ) • (A l).v := by
      rw [← Cell.vHom_apply, map_nsmul, Nat.cast_smul_eq_nsmul]; rfl
    have e3 : (n • A l).force = (n : ℝ) • (A l).force := by
      rw [← Cell.forceHom_apply, map_nsmul, Nat.cast_smul_eq_nsmul]; rfl
    have e4 : (n • A l).friction = n * (A l).friction := by
      rw [← Cell.frictionHom_apply, map_nsmul, nsmul_eq_mul]; rfl
    have hpos : n * (A l).mass > 0 ↔ (A l).mass > 0 := by
      constructor
      · intro h'; exact (pos_iff_pos_of_mul_pos h').mp hnp
      · intro h'; positivity
    apply Cell.ext'
    · show (n • A l).mass * (c * P.particleMass / n) = c * ((A l).mass * P.particleMass)
      rw [e1]; field_simp
    · show (if (n • A l).mass > 0 then (n • A l).mass⁻¹ • (n • A l).v else 0) = if (A l).mass > 0 then (A l).mass⁻¹ • (A l).v else 0
      rw [e1, e2]
      by_cases hp : (A l).mass > 0
      · rw [if_pos hp, if_pos (hpos.mpr hp), smul_smul]
        congr 1
        field_simp
      · rw [if_neg hp, if_neg (fun h' => hp (hpos.mp h'))]
    · exact e3
    · show (if P.useMibf then (n • A l).friction / (n • A l).mass else (n • A l).friction) =
        if P.useMibf then (A l).friction / (A l).mass else (A l).friction
      rw [e1, e4]
      cases hb : P.useMibf with
      | true => rw [if_pos rfl, if_pos rfl, mul_div_mul_left _ _ hn']
      | false => simp [hfr hb]
  · rw [if_neg hc, if_neg (fun H => hc (hall.mp H))]; rfl

lemma euler_copies (hn : n ≠ 0) (hc : 0 < c) (P : TransferParams ℝ) (dt : ℝ) (grav : Fin d → ℝ)
    (bc : ℕ → (Fin d → ℝ) → (Fin d → ℝ) → (Fin d → ℝ)) (g : Axes d ℝ) (arr : GridArr d ℝ) :
    eulerUpdate (lighter n c P) dt grav bc g (heavier n c arr) = eulerUpdate P dt grav bc g arr := by
  have hn' : (n : ℝ) ≠ 0 := Nat.cast_ne_zero.mpr hn
  unfold eulerUpdate
  congr 1
  funext e i
  unfold eulerNode
  have e1 : (-(dt * (lighter n c P).particleVolume) / (heavier n c arr (flatIndex g.size i)).mass) •
      (heavier n c arr (flatIndex g.size i)).force =
      (-(dt * P.particleVolume) / (arr (flatIndex g.size i)).mass) • (arr (flatIndex g.size i)).force := by
    show (-(dt * (c * P.particleVolume / n)) / (c * (arr (flatIndex g.size i)).mass)) • ((n : ℝ) • (arr (flatIndex g.size i)).force) = _
    rw [smul_smul]
    congr 1
    field_simp
  have e2 : (heavier n c arr (flatIndex g.size i)).mass > 0 ↔ (arr (flatIndex g.size i)).mass > 0 :=
    mul_pos_iff_of_pos_left hc
  simp only [e1, e2]

lemma musl_copies (hn : n ≠ 0) (hc : 0 < c) (P : TransferParams ℝ) (g : Axes d ℝ) (mass : ℕ → ℝ) (ps : List (Particle d ℝ)) :
    MUSL (lighter n c P) g (fun l => c * mass l) [copies n ps] = (MUSL P g mass [ps]).map (Prod.map (List.map (copies n)) id) := by
  have hn' : (n : ℝ) ≠ 0 := Nat.cast_ne_zero.mpr hn
  unfold MUSL
  simp only [mapM_withStencils_cases, List.map_cons, List.map_nil]
  have eb : ∀ p : Particle d ℝ, blendVelocity (lighter n c P) p = blendVelocity P p := fun _ => rfl
  simp only [eb, ← copies_map]
  generalize (ps.map fun p => ({ p with v := blendVelocity P p } : Particle d ℝ)) = L
  have hall : (∀ p ∈ [copies n L].flatten, (stencilP2G P.deg P.oneOverDx g p.x).isSome) ↔
      ∀ p ∈ [L].flatten, (stencilP2G P.deg P.oneOverDx g p.x).isSome := by
    simp [mem_copies hn]
  show (if ∀ p ∈ [copies n L].flatten, (stencilP2G P.deg P.oneOverDx g p.x).isSome then _ else none).bind _ = _
  by_cases hc' : ∀ p ∈ [L].flatten, (stencilP2G P.deg P.oneOverDx g p.x).isSome
  · rw [if_pos hc', if_pos (hall.mpr hc')]
    simp only [Option.bind_eq_bind, Option.bind_some, Option.map_some, Prod.map, List.map_cons, List.map_nil, id]
    congr 2
    funext l
    have key : muslAccumulate (lighter n c P) g.size
        [copies n (L.map fun p => (p, (stencilP2G P.deg P.oneOverDx g p.x).getD ⟨0, 0, 0, 0⟩))] l =
        n • muslAccumulate P g.size [L.map fun p => (p, (stencilP2G P.deg P.oneOverDx g p.x).getD ⟨0, 0, 0, 0⟩)] l := by
      rw [muslAccumulate_eq, muslAccumulate_eq, List.flatten_singleton, List.flatten_singleton, ← copies_map, copies_sum]
      rfl
    unfold muslFinish
    erw [key]
    have e2 : c * mass l > 0 ↔ mass l > 0 := mul_pos_iff_of_pos_left hc
    simp only [e2]
    split_ifs
    · rw [← Nat.cast_smul_eq_nsmul ℝ, smul_smul]
      congr 1
      show (c * mass l / (c * P.particleMass / n))⁻¹ * n = (mass l / P.particleMass)⁻¹
      by_cases h1 : P.particleMass = 0
      · simp [h1]
      · field_simp
    · rfl
  · rw [if_neg hc', if_neg (fun H => hc' (hall.mp H))]; rfl

end transfers

/-! ### Runs -/

section run
variable {d : ℕ} {R : Setup (d + 2)} {n : ℕ} {c : ℝ}

/-- The set-up with particles of `c / n` of the mass and the volume. -/
noncomputable def finer (n : ℕ) (c : ℝ) (R : Setup (d + 2)) : Setup (d + 2) :=
  { R with S := { R.S with P := { R.S.P with
      particleMass := c * R.S.P.particleMass / n, particleVolume := c * R.S.P.particleVolume / n } } }

/-- The world with every particle `n` times, and `c` times the mass on the grid. -/
noncomputable def multiply (n : ℕ) (c : ℝ) (w : World (d + 2)) : World (d + 2) :=
  { w with ps := copies n w.ps, mass := fun l => c * w.mass l }

lemma physStep_copies (hR : ∀ k ps, (R.sched k ps).flatten.Perm ps) (hn : n ≠ 0) (hc0 : 0 < c) (w : World (d + 2)) (dt : ℝ)
    (g : Fin (d + 2) → ℝ) (t : ℝ) (k : ℕ) :
    physStep (finer n c R) (multiply n c w) dt g t k = (physStep R w dt g t k).map (Prod.map (multiply n c) id) := by
  set gh := if R.S.pbc = true then ghosts R.S.P.dx (R.S.L 0) 4 w.ps else [] with hgh
  have hg : (if (finer n c R).S.pbc = true then ghosts (finer n c R).S.P.dx ((finer n c R).S.L 0) 4 (copies n w.ps) else []) = copies n gh := by
    show (if R.S.pbc = true then ghosts R.S.P.dx (R.S.L 0) 4 (copies n w.ps) else []) = _
    rw [hgh]
    split_ifs
    · exact copies_filterMap _ _
    · rfl
  have hP2G : ∀ g, P2G (finer n c R).S.P g ((finer n c R).sched k (copies n w.ps ++ copies n gh)) =
      (P2G R.S.P g (R.sched k (w.ps ++ gh))).map (heavier n c) := fun g => by
    rw [← C03_p2g R.S.P g [w.ps ++ gh] (R.sched k (w.ps ++ gh)) (by simpa using (hR _ _).symm)]
    refine p2g_copies (ts := [w.ps ++ gh]) hn R.S.P g ?_
    rw [List.flatten_singleton, copies_append]
    exact hR _ _
  have hg2p : ∀ g e, g2pFull (finer n c R) dt g e (copies n w.ps) = (g2pFull R dt g e w.ps).map (copies n) := by
    intro g e
    simp only [g2pFull, withStencils, Option.bind_eq_bind]
    rw [copies_mapM hn]
    show ((w.ps.mapM fun p => (stencilG2P R.S.P.deg R.S.P.oneOverDx g p.x).map fun s => (p, s)).map _).bind _ = _
    cases hs : w.ps.mapM fun p => (stencilG2P R.S.P.deg R.S.P.oneOverDx g p.x).map fun s => (p, s) with
    | none => rfl
    | some ss =>
      rw [Option.map_some, Option.bind_some, Option.bind_some]
      exact copies_mapM hn _ _
  have hdef : ∀ g v L, deformFull (finer n c R) dt g v (copies n L) = (deformFull R dt g v L).map (copies n) := by
    intro g v L
    simp only [deformFull, withStencils, Option.bind_eq_bind]
    rw [copies_mapM hn]
    show ((L.mapM fun p => (stencilG2P R.S.P.deg R.S.P.oneOverDx g p.x).map fun s => (p, s)).map _).bind _ = _
    cases hs : L.mapM fun p => (stencilG2P R.S.P.deg R.S.P.oneOverDx g p.x).map fun s => (p, s) with
    | none => rfl
    | some ss =>
      rw [Option.map_some, Option.bind_some, Option.bind_some]
      exact copies_mapM hn _ _
  rw [physStep_eq, physStep_eq]
  simp only [multiply, hg, ← hgh]
  rw [chooseGrid_copies (S := R.S) (S' := (finer n c R).S) rfl rfl rfl rfl hn]
  cases chooseGrid R.S ⟨w.ps, w.box, w.g, k⟩ with
  | none => rfl
  | some bg =>
    simp only [Option.bind_some]
    have hc : ((finer n c R).S.P.useMibf = true ∧ copies n gh ≠ []) ↔ (R.S.P.useMibf = true ∧ gh ≠ []) := by
      rw [ne_eq, ne_eq, copies_eq_nil hn]; rfl
    by_cases hm : R.S.P.useMibf = true ∧ gh ≠ []
    · rw [if_pos hm, if_pos (hc.mpr hm)]; rfl
    rw [if_neg hm, if_neg (fun h => hm (hc.mp h)), hP2G]
    cases P2G R.S.P bg.2 (R.sched k (w.ps ++ gh)) with
    | none => rfl
    | some arr =>
      simp only [Option.bind_some, Option.map_some, afterP2G, hg2p]
      set bc := boundaryCollision R.ops R.S.P.useMibf (fun l => (arr l).friction) dt R.objs w.plates with hbc
      have he : eulerUpdate (finer n c R).S.P dt g (boundaryCollision (finer n c R).ops (finer n c R).S.P.useMibf
          (fun l => (heavier n c arr l).friction) dt (finer n c R).objs w.plates) bg.2 (heavier n c arr) =
          eulerUpdate R.S.P dt g bc bg.2 arr := euler_copies hn hc0 R.S.P dt g bc bg.2 arr
      rw [he]
      set e := eulerUpdate R.S.P dt g bc bg.2 arr
      cases hq : g2pFull R dt bg.2 e w.ps with
      | none => rfl
      | some qs =>
        simp only [Option.map_some, Option.bind_some]
        have hmid : (if (finer n c R).S.useMusl = true then
              (MUSL (finer n c R).S.P bg.2 (fun l => (heavier n c arr l).mass) [(copies n qs).map (·.1)]).bind fun r =>
              (deformFull (finer n c R) dt bg.2 r.2 r.1.flatten).map fun qs => (qs, r.2) else some (copies n qs, e.v)) =
            ((if R.S.useMusl = true then (MUSL R.S.P bg.2 (fun l => (arr l).mass) [qs.map (·.1)]).bind fun r =>
            (deformFull R dt bg.2 r.2 r.1.flatten).map fun qs => (qs, r.2) else some (qs, e.v))).map (Prod.map (copies n) id) := by
          show (if R.S.useMusl = true then _ else _) = _
          by_cases hu : R.S.useMusl = true
          · simp only [if_pos hu]
            rw [← copies_map]
            have := musl_copies hn hc0 R.S.P bg.2 (fun l => (arr l).mass) (qs.map (·.1))
            rw [show MUSL (finer n c R).S.P bg.2 (fun l => (heavier n c arr l).mass) [copies n (qs.map (·.1))] = _ from this]
            cases hM : MUSL R.S.P bg.2 (fun l => (arr l).mass) [qs.map (·.1)] with
            | none => rfl
            | some r =>
              have hfl : (r.1.map (copies n)).flatten = copies n r.1.flatten := by
                induction r.1 with
                | nil => rfl
                | cons a l ih => rw [List.map_cons, List.flatten_cons, List.flatten_cons, copies_append, ih]
              simp only [Option.map_some, Option.bind_some, Prod.map_fst, Prod.map_snd, id, hfl, hdef]
              rw [Option.map_map, Option.map_map]
              rfl
          · simp only [if_neg hu]
            rfl
        rw [hmid]
        cases (if R.S.useMusl = true then (MUSL R.S.P bg.2 (fun l => (arr l).mass) [qs.map (·.1)]).bind fun r =>
            (deformFull R dt bg.2 r.2 r.1.flatten).map fun qs => (qs, r.2) else some (qs, e.v)) with
        | none => rfl
        | some qs' =>
          simp only [Option.map_some, Option.bind_some, Prod.map_fst, Prod.map_snd, copies_any hn, ← copies_map]
          rfl

/-- **C126** Replacing every particle by `n` particles of `c / n` of its mass and volume at the same place and in the same state:
the run ends in the same way after the same steps, the particle files list every particle `n` times, and the grid
files are the same but for the masses, which are `c` times as large. -/
theorem C126_run (hR : ∀ k ps, (R.sched k ps).flatten.Perm ps) (hn : n ≠ 0) (hc : 0 < c) (i e : Bool) (fuel : ℕ)
    (s : LoopState (d + 2) (World (d + 2))) :
    runProgram (finer n c R) i e fuel (s.map (multiply n c) id) = (runProgram R i e fuel s).map (multiply n c) id := by
  unfold runProgram
  show (if accepted i R.m.elastic R.m.plastic e then _ else _) = _
  split_ifs with ha
  · have := simulate_map (C := R.C) (ph := physics R) (ph' := physics (finer n c R)) (f := multiply n c) (γ := LinearMap.id)
      (Inv := fun w => True)
      (fun w _ => maxSpeed_mem fun a => by
        show a ∈ (copies n w.ps).map _ ↔ a ∈ w.ps.map _
        rw [← copies_map, mem_copies hn])
      (fun w dt g t k _ => physStep_copies hR hn hc w dt g t k)
      (fun w dt g t n w' hw h => trivial)
      i R.m.elastic R.m.plastic e fuel { s with w := fillMuI R.m R.S.P.useMibf s.w } trivial
    have e1 : ∀ w : World (d + 2), fillMuI R.m R.S.P.useMibf (multiply n c w) = multiply n c (fillMuI R.m R.S.P.useMibf w) := by
      intro w
      unfold fillMuI multiply
      by_cases hm : R.S.P.useMibf = true
      · simp only [if_pos hm, copies_map]
      · simp only [if_neg hm]
    simp only [LoopState.map, LinearMap.id_coe, id_eq] at this ⊢
    show simulate R.C (physics (finer n c R)) i R.m.elastic R.m.plastic e fuel
      { s with w := fillMuI R.m R.S.P.useMibf (multiply n c s.w), out := _ } = _
    rw [e1]
    exact this
  · rfl

/-- **C126** Listing all particles `n` times (e.g. sampling the same body twice), with mass and volume as they were: the particles
move as before, and only the masses in the grid files show it. -/
theorem C126_twice (hR : ∀ k ps, (R.sched k ps).flatten.Perm ps) (hn : n ≠ 0) (i e : Bool) (fuel : ℕ)
    (s : LoopState (d + 2) (World (d + 2))) :
    runProgram R i e fuel (s.map (multiply n n) id) = (runProgram R i e fuel s).map (multiply n n) id := by
  have hn' : (n : ℝ) ≠ 0 := Nat.cast_ne_zero.mpr hn
  have h := C126_run hR hn (Nat.cast_pos.mpr (Nat.pos_of_ne_zero hn)) i e fuel s
  have e1 : finer n n R = R := by
    unfold finer
    rw [mul_div_cancel_left₀ _ hn', mul_div_cancel_left₀ _ hn']
  rwa [e1] at h

/-- **C126** Mass and volume of the particles matter only by their ratio, the density: with both multiplied by `c`, all particle
files are the same. -/
theorem C126_density (hR : ∀ k ps, (R.sched k ps).flatten.Perm ps) (hc : 0 < c) (i e : Bool) (fuel : ℕ)
    (s : LoopState (d + 2) (World (d + 2))) :
    runProgram { R with S := { R.S with P := { R.S.P with
        particleMass := c * R.S.P.particleMass, particleVolume := c * R.S.P.particleVolume } } } i e fuel
      (s.map (fun w => { w with mass := fun l => c * w.mass l }) id) =
      (runProgram R i e fuel s).map (fun w => { w with mass := fun l => c * w.mass l }) id := by
  have h := C126_run hR one_ne_zero hc i e fuel s
  have e1 : multiply (d := d) 1 c = fun w => { w with mass := fun l => c * w.mass l } := by
    funext w
    have : copies 1 w.ps = w.ps := by simp [copies]
    unfold multiply
    rw [this]
  rw [e1] at h
  rw [← h]
  unfold finer
  rw [Nat.cast_one, div_one, div_one]

end run
end Verif.Props
