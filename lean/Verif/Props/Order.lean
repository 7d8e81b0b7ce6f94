import Verif.Lemmas.Simulate
import Verif.Lemmas.Remesh
import Verif.Props.Transfer
import Verif.Props.Run

set_option linter.unusedSimpArgs false
set_option linter.unusedVariables false

/-!
# C62: threads and the order of the particles do not matter for a whole run
-/

namespace Verif.Props
open Verif Matrix

/-- The elements of `l` at the positions listed in `order`. -/
def pick {α : Type*} (order : List ℕ) (l : List α) : List α := order.filterMap fun k => l[k]?

section pick
variable {α β : Type*} {o : List ℕ}

lemma pick_map (f : α → β) (l : List α) : pick o (l.map f) = (pick o l).map f := by
  simp [pick, List.map_filterMap, List.getElem?_map]

lemma pick_range (l : List α) : pick (List.range l.length) l = l := by
  induction l with
  | nil => rfl
  | cons a l ih =>
    rw [List.length_cons, List.range_succ_eq_map, pick, List.filterMap_cons]
    simp only [List.getElem?_cons_zero, List.filterMap_map]
    congr 1

lemma pick_perm {l : List α} (ho : o.Perm (List.range l.length)) : (pick o l).Perm l := by
  conv_rhs => rw [← pick_range l]
  exact ho.filterMap _

lemma pick_length {l : List α} (ho : o.Perm (List.range l.length)) : (pick o l).length = l.length :=
  (pick_perm ho).length_eq

lemma mapM_none {f : α → Option β} {l : List α} : l.mapM f = none ↔ ∃ a ∈ l, f a = none := by
  induction l with
  | nil => simp
  | cons a l ih =>
    simp only [List.mapM_cons, Option.bind_eq_bind, Option.pure_def, List.mem_cons, exists_eq_or_imp]
    cases h : f a with
    | none => simp
    | some b =>
      simp only [Option.bind_some, reduceCtorEq, false_or]
      rw [← ih]
      cases l.mapM f <;> simp

lemma mapM_getElem? {f : α → Option β} {l : List α} {r : List β} (h : l.mapM f = some r) (k : ℕ) :
    r[k]? = (l[k]?).bind f := by
  have := mapM_forall₂ h
  clear h
  induction this generalizing k with
  | nil => simp
  | cons hab _ ih =>
    cases k with
    | zero => simp [hab]
    | succ k => simpa using ih k

/-- A computation on all particles commutes with re-ordering them. -/
lemma pick_mapM {f : α → Option β} {l : List α} (ho : o.Perm (List.range l.length)) :
    (pick o l).mapM f = (l.mapM f).map (pick o) := by
  cases h : l.mapM f with
  | none =>
    rw [mapM_none] at h
    obtain ⟨a, ha, hf⟩ := h
    rw [Option.map_none, mapM_none]
    exact ⟨a, (pick_perm ho).mem_iff.mpr ha, hf⟩
  | some r =>
    rw [Option.map_some]
    have hk := mapM_getElem? h
    have hall : ∀ a ∈ l, (f a).isSome := by
      intro a ha
      obtain ⟨i, hi, rfl⟩ := List.mem_iff_getElem.mp ha
      have := hk i
      rw [List.getElem?_eq_getElem hi, Option.bind_some] at this
      rw [← this, List.getElem?_eq_getElem (by rw [← (mapM_forall₂ h).length_eq]; exact hi)]
      rfl
    clear h ho
    induction o with
    | nil => rfl
    | cons k o ih =>
      simp only [pick, List.filterMap_cons] at ih ⊢
      rw [hk k]
      cases hl : l[k]? with
      | none => simpa using ih
      | some a =>
        obtain ⟨b, hb⟩ := Option.isSome_iff_exists.mp (hall a (List.mem_of_getElem? hl))
        simp [hb, ih]

end pick

section invariance
variable {d : ℕ}

lemma maxElem_perm {xs ys : List ℝ} (h : xs.Perm ys) : maxElem xs = maxElem ys := by
  by_cases hx : xs = []
  · subst hx; rw [h.nil_eq]
  · have hy : ys ≠ [] := fun e => hx (by subst e; exact h.eq_nil)
    obtain ⟨a, ha, h1, h2⟩ := maxElem_spec hx
    obtain ⟨b, hb, h3, h4⟩ := maxElem_spec hy
    rw [ha, hb, le_antisymm (h4 a (h.mem_iff.mp h1)) (h2 b (h.mem_iff.mpr h3))]

lemma minElem_perm {xs ys : List ℝ} (h : xs.Perm ys) : minElem xs = minElem ys := by
  by_cases hx : xs = []
  · subst hx; rw [h.nil_eq]
  · have hy : ys ≠ [] := fun e => hx (by subst e; exact h.eq_nil)
    obtain ⟨a, ha, h1, h2⟩ := minElem_spec hx
    obtain ⟨b, hb, h3, h4⟩ := minElem_spec hy
    rw [ha, hb, le_antisymm (h2 b (h.mem_iff.mpr h3)) (h4 a (h.mem_iff.mp h1))]

lemma maxSpeed_perm {vs ws : List (Fin d → ℝ)} (h : vs.Perm ws) : maxSpeed vs = maxSpeed ws := by
  cases vs with
  | nil => rw [h.nil_eq]
  | cons v vs =>
    cases ws with
    | nil => exact absurd h.eq_nil (by simp)
    | cons w ws =>
      obtain ⟨a, ha⟩ : ∃ a, maxElement (v :: vs) = some a := ⟨_, rfl⟩
      obtain ⟨b, hb⟩ : ∃ b, maxElement (w :: ws) = some b := ⟨_, rfl⟩
      obtain ⟨h1, h2⟩ := maxElement_spec ha
      obtain ⟨h3, h4⟩ := maxElement_spec hb
      rw [maxSpeed, maxSpeed, ha, hb, Option.map_some, Option.map_some,
        le_antisymm (h4 a (h.mem_iff.mp h1)) (h2 b (h.mem_iff.mpr h3))]

lemma chooseGrid_perm {S : StepParams (d + 2) ℝ} {ps qs : List (Particle (d + 2) ℝ)} (h : ps.Perm qs)
    (box : Option (Fin (d + 2) → AxisInit ℝ)) (g : Axes (d + 2) ℝ) (n : ℕ) :
    chooseGrid S ⟨ps, box, g, n⟩ = chooseGrid S ⟨qs, box, g, n⟩ := by
  have hx : ∀ a, ((ps.map fun p => p.x).map fun x => x a).Perm ((qs.map fun p => p.x).map fun x => x a) :=
    fun a => (h.map _).map _
  have h1 : remeshInit S.P.dx S.ref (ps.map fun p => p.x) = remeshInit S.P.dx S.ref (qs.map fun p => p.x) := by
    simp only [remeshInit]
    congr 1
    congr 1
    funext a
    simp only [axisInit, maxElem_perm (hx a), minElem_perm (hx a)]
  have h2 : ∀ b, remeshCont S.P.dx b (ps.map fun p => p.x) = remeshCont S.P.dx b (qs.map fun p => p.x) := by
    intro b
    simp only [remeshCont]
    congr 1
    funext a
    simp only [axisContNodes, maxElem_perm (hx a), minElem_perm (hx a)]
  simp only [chooseGrid, h1, h2]

end invariance

section run
variable {d : ℕ} {R : Setup (d + 2)}

/-- **C62** Any two ways of distributing the particles to threads, step by step, give the same run: the same
end, the same files with the same content. (Re-projection with MUSL: `C03_musl`.) -/
theorem C62_threads (hR : ∀ k ps, (R.sched k ps).flatten.Perm ps)
    {sched : ℕ → List (Particle (d + 2) ℝ) → List (List (Particle (d + 2) ℝ))}
    (hs : ∀ k ps, (sched k ps).flatten.Perm ps) (i e : Bool) (fuel : ℕ) (s : LoopState (d + 2) (World (d + 2))) :
    runProgram { R with sched := sched } i e fuel s = runProgram R i e fuel s := by
  have : physics { R with sched := sched } = physics R := by
    simp only [physics]
    congr 1
    funext w dt g t n
    show physStep _ _ _ _ _ _ = physStep _ _ _ _ _ _
    rw [physStep_eq, physStep_eq]
    congr 1
    funext bg
    rw [C03_p2g _ _ _ (R.sched n _) ((hs _ _).trans (hR _ _).symm)]
    rfl
  simp only [runProgram, this]

/-- The world with the particles listed in another order. -/
def reorder (o : List ℕ) (w : World (d + 2)) : World (d + 2) := { w with ps := pick o w.ps }

lemma physStep_reorder (hR : ∀ k ps, (R.sched k ps).flatten.Perm ps) {o : List ℕ} {w : World (d + 2)}
    (ho : o.Perm (List.range w.ps.length)) (dt : ℝ) (g : Fin (d + 2) → ℝ) (t : ℝ) (n : ℕ) :
    physStep R (reorder o w) dt g t n = (physStep R w dt g t n).map (Prod.map (reorder o) id) := by
  have hp := pick_perm ho
  set gh := if R.S.pbc = true then ghosts R.S.P.dx (R.S.L 0) 4 w.ps else [] with hgh
  set gh' := if R.S.pbc = true then ghosts R.S.P.dx (R.S.L 0) 4 (pick o w.ps) else [] with hgh'
  have hg : gh'.Perm gh := by
    rw [hgh, hgh']
    split_ifs
    · exact hp.filterMap _
    · exact .refl _
  have hP2G : ∀ g, P2G R.S.P g (R.sched n (pick o w.ps ++ gh')) = P2G R.S.P g (R.sched n (w.ps ++ gh)) := fun g =>
    C03_p2g _ _ _ _ ((hR _ _).trans ((hp.append hg).trans (hR _ _).symm))
  have hc : (R.S.P.useMibf = true ∧ gh' ≠ []) ↔ (R.S.P.useMibf = true ∧ gh ≠ []) := by
    have : gh' = [] ↔ gh = [] := ⟨fun h => by rw [h] at hg; exact hg.nil_eq.symm, fun h => by rw [h] at hg; exact hg.eq_nil⟩
    rw [ne_eq, ne_eq, this]
  have hg2p : ∀ g e, g2pFull R dt g e (pick o w.ps) = (g2pFull R dt g e w.ps).map (pick o) := by
    intro g e
    simp only [g2pFull, withStencils, Option.bind_eq_bind]
    rw [pick_mapM ho]
    cases hs : w.ps.mapM fun p => (stencilG2P R.S.P.deg R.S.P.oneOverDx g p.x).map fun s => (p, s) with
    | none => rfl
    | some ss =>
      rw [Option.map_some, Option.bind_some, Option.bind_some]
      exact pick_mapM (by rw [← (mapM_forall₂ hs).length_eq]; exact ho)
  rw [physStep_eq, physStep_eq]
  simp only [reorder, ← hgh, ← hgh', chooseGrid_perm hp]
  cases chooseGrid R.S ⟨w.ps, w.box, w.g, n⟩ with
  | none => rfl
  | some bg =>
    simp only [Option.bind_some]
    by_cases hm : R.S.P.useMibf = true ∧ gh ≠ []
    · rw [if_pos hm, if_pos (hc.mpr hm)]; rfl
    rw [if_neg hm, if_neg (fun h => hm (hc.mp h)), hP2G]
    cases P2G R.S.P bg.2 (R.sched n (w.ps ++ gh)) with
    | none => rfl
    | some arr =>
      simp only [Option.bind_some, afterP2G, hg2p]
      set e := eulerUpdate R.S.P dt g
        (boundaryCollision R.ops R.S.P.useMibf (fun l => (arr l).friction) dt R.objs w.plates) bg.2 arr
      cases hq : g2pFull R dt bg.2 e w.ps with
      | none => rfl
      | some qs =>
        have hlen : qs.length = w.ps.length := by
          simp only [g2pFull, Option.bind_eq_bind, Option.bind_eq_some_iff] at hq
          obtain ⟨ss, h1, h2⟩ := hq
          rw [← (mapM_forall₂ h2).length_eq, ← (withStencils_forall₂ h1).length_eq]
        have hoq : o.Perm (List.range qs.length) := by rw [hlen]; exact ho
        simp only [Option.map_some, Option.bind_some]
        have hmid : (if R.S.useMusl = true then (MUSL R.S.P bg.2 (fun l => (arr l).mass) [(pick o qs).map (·.1)]).bind fun r =>
            (deformFull R dt bg.2 r.2 r.1.flatten).map fun qs => (qs, r.2) else some (pick o qs, e.v)) =
            ((if R.S.useMusl = true then (MUSL R.S.P bg.2 (fun l => (arr l).mass) [qs.map (·.1)]).bind fun r =>
            (deformFull R dt bg.2 r.2 r.1.flatten).map fun qs => (qs, r.2) else some (qs, e.v))).map (Prod.map (pick o) id) ∧
            ∀ qs', (if R.S.useMusl = true then (MUSL R.S.P bg.2 (fun l => (arr l).mass) [qs.map (·.1)]).bind fun r =>
            (deformFull R dt bg.2 r.2 r.1.flatten).map fun qs => (qs, r.2) else some (qs, e.v)) = some qs' →
            qs'.1.length = w.ps.length := by
          by_cases hu : R.S.useMusl = true
          · simp only [if_pos hu]
            have hpm : ([(pick o qs).map (·.1)] : List (List (Particle (d + 2) ℝ))).flatten.Perm
                ([qs.map (·.1)] : List (List (Particle (d + 2) ℝ))).flatten := by
              simpa using (pick_perm hoq).map _
            obtain ⟨hA, hB⟩ := musl_any_order R.S.P bg.2 (fun l => (arr l).mass) _ _ hpm
            obtain ⟨-, hB'⟩ := musl_any_order R.S.P bg.2 (fun l => (arr l).mass) _ _ hpm.symm
            cases hM : MUSL R.S.P bg.2 (fun l => (arr l).mass) [qs.map (·.1)] with
            | none =>
              rw [hM, Option.map_none, Option.map_eq_none_iff] at hA
              rw [hA]
              exact ⟨rfl, fun _ h => by cases h⟩
            | some r =>
              rw [hM, Option.map_some, Option.map_eq_some_iff] at hA
              obtain ⟨r', hM', hr⟩ := hA
              have e1 := hB r' hM'
              have e2 := hB' r hM
              rw [hM']
              simp only [Option.bind_some, hr, e1, e2]
              have hl : (([qs.map (·.1)] : List (List (Particle (d + 2) ℝ))).flatten.map fun p =>
                  ({ p with v := blendVelocity R.S.P p } : Particle (d + 2) ℝ)).length = w.ps.length := by
                simp [hlen]
              have e3 : (([(pick o qs).map (·.1)] : List (List (Particle (d + 2) ℝ))).flatten.map fun p =>
                  ({ p with v := blendVelocity R.S.P p } : Particle (d + 2) ℝ)) =
                  pick o (([qs.map (·.1)] : List (List (Particle (d + 2) ℝ))).flatten.map fun p =>
                  ({ p with v := blendVelocity R.S.P p } : Particle (d + 2) ℝ)) := by
                simp [pick_map]
              rw [e3]
              generalize (([qs.map (·.1)] : List (List (Particle (d + 2) ℝ))).flatten.map fun p =>
                  ({ p with v := blendVelocity R.S.P p } : Particle (d + 2) ℝ)) = L at hl
              simp only [deformFull, withStencils, Option.bind_eq_bind]
              rw [pick_mapM (by rw [hl]; exact ho)]
              cases hs : L.mapM fun p => (stencilG2P R.S.P.deg R.S.P.oneOverDx bg.2 p.x).map fun s => (p, s) with
              | none => exact ⟨rfl, fun _ h => by cases h⟩
              | some ss =>
                rw [Option.map_some, Option.bind_some, Option.bind_some]
                have hss : ss.length = w.ps.length := by rw [← (mapM_forall₂ hs).length_eq, hl]
                refine ⟨?_, fun qs' h => ?_⟩
                · rw [pick_mapM (by rw [hss]; exact ho), Option.map_map, Option.map_map]
                  rfl
                · obtain ⟨qs'', h1, rfl⟩ := Option.map_eq_some_iff.mp h
                  rw [← (mapM_forall₂ h1).length_eq, hss]
          · simp only [if_neg hu]
            exact ⟨rfl, fun _ h => by obtain rfl := Option.some.inj h; exact hlen⟩
        rw [hmid.1]
        cases hq' : (if R.S.useMusl = true then (MUSL R.S.P bg.2 (fun l => (arr l).mass) [qs.map (·.1)]).bind fun r =>
            (deformFull R dt bg.2 r.2 r.1.flatten).map fun qs => (qs, r.2) else some (qs, e.v)) with
        | none => rfl
        | some qs' =>
          have hl' := hmid.2 _ hq'
          have hany : (pick o qs'.1).any (·.2) = qs'.1.any (·.2) := by
            have := pick_perm (o := o) (l := qs'.1) (by rw [hl']; exact ho)
            rw [Bool.eq_iff_iff, List.any_eq_true, List.any_eq_true]
            exact ⟨fun ⟨x, hx, h⟩ => ⟨x, this.mem_iff.mp hx, h⟩, fun ⟨x, hx, h⟩ => ⟨x, this.mem_iff.mpr hx, h⟩⟩
          simp [pick_map, hany, reorder]

/-- **C62** Listing the particles in another order: every file of the run lists the same particles in that other
order, and the run ends in the same way. -/
theorem C62_order (hR : ∀ k ps, (R.sched k ps).flatten.Perm ps) {o : List ℕ} {s : LoopState (d + 2) (World (d + 2))}
    (ho : o.Perm (List.range s.w.ps.length)) (i e : Bool) (fuel : ℕ) :
    runProgram R i e fuel (s.map (reorder o) id) = (runProgram R i e fuel s).map (reorder o) id := by
  unfold runProgram
  split_ifs with ha
  · have := simulate_map (C := R.C) (ph := physics R) (ph' := physics R) (f := reorder o) (γ := LinearMap.id)
      (Inv := fun w => o.Perm (List.range w.ps.length))
      (fun w hw => maxSpeed_perm (by simpa [physics, reorder] using (pick_perm hw).map _))
      (fun w dt g t n hw => physStep_reorder hR hw dt g t n)
      (fun w dt g t n w' hw h => by rw [← (physStep_forall₂ h).length_eq]; exact hw)
      i R.m.elastic R.m.plastic e fuel { s with w := fillMuI R.m R.S.P.useMibf s.w }
      (by
        have : (fillMuI R.m R.S.P.useMibf s.w).ps.length = s.w.ps.length := by unfold fillMuI; split_ifs <;> simp
        simp only [this]; exact ho)
    have e1 : ∀ w : World (d + 2), fillMuI R.m R.S.P.useMibf (reorder o w) = reorder o (fillMuI R.m R.S.P.useMibf w) := by
      intro w
      unfold fillMuI reorder
      by_cases hm : R.S.P.useMibf = true
      · simp only [if_pos hm, pick_map]
      · simp only [if_neg hm]
    simp only [LoopState.map, LinearMap.id_coe, id_eq, e1] at this ⊢
    exact this
  · rfl

end run
end Verif.Props
