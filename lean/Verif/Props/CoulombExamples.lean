import Verif.Props.Coulomb
import Verif.Props.RunExamples

set_option linter.unusedSectionVars false
set_option linter.unusedSimpArgs false
set_option linter.unusedVariables false

/-!
# Concrete runs meeting the hypotheses of C72 and C73
-/

namespace Verif.Props.RunEx
open Verif Matrix
noncomputable section

/-- The nodes of the pair have the velocity of free fall. -/
lemma pair_velocity (musl : Bool) {G : Fin 2 → ℝ} {pl : List (Plate 2)} {s1 : LoopState 2 (World 2)} {dt : ℝ}
    {g : Fin 2 → ℝ} {w : World 2} (hst : StepOf (setup musl 1 .vm) (start pair G pl) s1 dt g w) (X u : Fin 2 → ℝ)
    (hm : 0 < massAt .two 1 3 s1.w.ps X)
    (hu : massAt .two 1 3 s1.w.ps X • u =
        freeMomentum .two 1 (-19 / 20) (setup musl 1 .vm).S.P.apicDinverse 3 1 dt g s1.w.ps X) :
    u = dt • G ∧ s1.w.plates = pl := by
  have hg : g = G := by
    rw [hst.dt_ge.2]
    obtain ⟨k, hr, -⟩ := hst
    have hk := only_begin musl (by simp [pair]) (fun p hp => (pair_rest p hp).1) _ k s1 hr
    subst hk
    cases hr
    rw [begin_gravity, rampGravity]
    rfl
  obtain ⟨k, hr, -⟩ := hst
  have hk := only_begin musl (by simp [pair]) (fun p hp => (pair_rest p hp).1) _ k s1 hr
  subst hk
  cases hr
  have hw : (begin (setup musl 1 .vm) (start pair G pl)).w.ps = pair := by
    rw [begin_w]; simp [fillMuI, setup, start, mkTransferParams]
  have hp : (begin (setup musl 1 .vm) (start pair G pl)).w.plates = pl := by
    rw [begin_w]; simp [fillMuI, setup, start, mkTransferParams]
  rw [hw] at hm hu
  refine ⟨?_, hp⟩
  have hz : freeMomentum .two 1 (-19 / 20) (setup musl 1 .vm).S.P.apicDinverse 3 1 dt g pair X =
      (dt * massAt .two 1 3 pair X) • g := by
    simp only [freeMomentum]
    rw [List.map_congr_left (g := fun _ => 0),
      List.map_congr_left (f := fun p : Particle 2 ℝ => p.tau *ᵥ shapeGrad Deg.two 1 X p.x) (g := fun _ => 0)]
    · simp
    · intro p hp
      rw [(pair_rest p (List.mem_of_mem_filter hp)).2.2.1]
      simp
    · intro p hp
      obtain ⟨h1, h2, -⟩ := pair_rest p (List.mem_of_mem_filter hp)
      rw [h1, h2]
      simp
  rw [hz, hg, mul_comm, mul_smul] at hu
  exact smul_right_injective _ hm.ne' hu

/-- `C72` for the pair beside a frictionless wall: it falls like a point mass. -/
example (musl : Bool) : ∃ t w,
    .particles 1 t w ∈ filesOf (runProgram (setup musl 1 .vm) true false 10 (start pair ![-3, -10] tray.tail)) ∧
    ∃ u, t ^ 2 / 2 ≤ u ∧
      firstMoment 3 w.ps 1 = firstMoment 3 pair 1 + t * momentum 3 pair 1 + u * (2 * 3) * (-10) := by
  obtain ⟨r, h, t, w, hw⟩ := one_step_run musl (pm := .vm) (.inl rfl) (ps := pair) (by simp [pair])
    (fun p hp => (pair_rest p hp).1) ![-3, -10] tray.tail
  have hev : .particles 1 t w ∈
      filesOf (runProgram (setup musl 1 .vm) true false 10 (start pair ![-3, -10] tray.tail)) := by
    rw [h]; exact hw
  refine ⟨t, w, hev, ?_⟩
  obtain ⟨c, u, -, -, -, hc, h1, -⟩ := C72_run (d := 0) (R := setup musl 1 .vm) (s := start pair ![-3, -10] tray.tail)
    (deg := .two) (dx := 1) (fr := -19 / 20) (m := 3) (vol := 1) (mibf := false) rfl (by simp) one_pos (by norm_num)
    rfl rfl fair2 (fun _ _ => by simp [setup]) (by norm_num [setup, cfg, exConfig]) (fun _ _ _ _ h => pair_step musl h)
    (.inl rfl) hev (by simp [start])
  refine ⟨u, (hc rfl).2.1, ?_⟩
  have := (h1 1 (by simp [setup]) (by
      intro p hp
      simp only [start, tray, List.tail_cons, List.mem_cons, List.not_mem_nil, or_false] at hp
      rw [hp]
      exact ⟨by simp, rfl, by simp [normalAxis]⟩)).2
  simpa [start, pair] using this

/-- `C72` for the pair on the tray: the floor holds its centre of mass back. -/
example (musl : Bool) : ∃ t w,
    .particles 1 t w ∈ filesOf (runProgram (setup musl 1 .vm) true false 10 (start pair ![-3, -10] tray)) ∧
    ∃ u, u ≤ t ^ 2 / 2 + t * max (cfg 1).dtMax (cfg 1).minDt / 2 ∧
      firstMoment 3 pair 1 + t * momentum 3 pair 1 + u * (2 * 3) * (-10) ≤ firstMoment 3 w.ps 1 := by
  obtain ⟨r, h, t, w, hw⟩ := one_step_run musl (pm := .vm) (.inl rfl) (ps := pair) (by simp [pair])
    (fun p hp => (pair_rest p hp).1) ![-3, -10] tray
  have hev : .particles 1 t w ∈
      filesOf (runProgram (setup musl 1 .vm) true false 10 (start pair ![-3, -10] tray)) := by
    rw [h]; exact hw
  refine ⟨t, w, hev, ?_⟩
  obtain ⟨c, u, -, -, -, hc, -, h2⟩ := C72_run (d := 0) (R := setup musl 1 .vm) (s := start pair ![-3, -10] tray)
    (deg := .two) (dx := 1) (fr := -19 / 20) (m := 3) (vol := 1) (mibf := false) rfl (by simp) one_pos (by norm_num)
    rfl rfl fair2 (fun _ _ => by simp [setup]) (by norm_num [setup, cfg, exConfig]) (fun _ _ _ _ h => pair_step musl h)
    (.inl rfl) hev (by simp [start])
  refine ⟨u, (hc rfl).2.2, ?_⟩
  have := h2 1 1 (by simp [setup]) (by
    intro p hp
    simp only [start, tray, List.mem_cons, List.not_mem_nil, or_false] at hp
    rcases hp with rfl | rfl
    · exact .inr ⟨rfl, rfl, rfl⟩
    · exact .inl ⟨by simp, rfl, by simp [normalAxis]⟩)
  simpa [start, pair] using this

/-- A fixed rough one-sided floor below the pair. -/
def slope : Plate 2 := ⟨1 / 2, .bottom, .slipFree, 1 / 2, -100, 100, 0, 0, 1, 0⟩

/-- `C73_coulomb` for the pair on the floor, gravity in any direction. -/
example (musl : Bool) (G : Fin 2 → ℝ) : ∃ t w,
    .particles 1 t w ∈ filesOf (runProgram (setup musl 1 .vm) true false 10 (start pair G [slope])) ∧
    let J := momentum 3 w.ps - momentum 3 pair - (t * (2 * 3)) • G
    |J 0| ≤ 1 / 2 * J 1 := by
  obtain ⟨r, h, t, w, hw⟩ := one_step_run musl (pm := .vm) (.inl rfl) (ps := pair) (by simp [pair])
    (fun p hp => (pair_rest p hp).1) G [slope]
  have hev : .particles 1 t w ∈ filesOf (runProgram (setup musl 1 .vm) true false 10 (start pair G [slope])) := by
    rw [h]; exact hw
  refine ⟨t, w, hev, ?_⟩
  obtain ⟨c, u, -, -, -, hc, h1⟩ := C73_coulomb (d := 0) (R := setup musl 1 .vm) (s := start pair G [slope])
    (deg := .two) (dx := 1) (fr := -19 / 20) (m := 3) (vol := 1) (b := 1) (σ := 1) (κ := 1 / 2)
    rfl (by simp) one_pos (by norm_num)
    rfl rfl coulomb2 (fun _ _ => by simp [setup]) (by norm_num [setup, cfg, exConfig]) (fun _ _ _ _ h => pair_step musl h)
    (by norm_num) (by simp [setup]) hev (by simp [start])
  have := (h1 ![1, 0] (by simp) (by simp [dotProduct]) (by
      intro p hp
      simp only [start, List.mem_cons, List.not_mem_nil, or_false] at hp
      rw [hp]
      left
      constructor <;> norm_num [slope, normalAxis, openSide])).1
  rw [(hc rfl).1] at this
  simpa [start, pair, dotProduct] using this

/-- `C73_sliding`: down a slope of 45 degrees friction takes half of the normal force. -/
example (musl : Bool) : ∃ t w,
    .particles 1 t w ∈ filesOf (runProgram (setup musl 1 .vm) true false 10 (start pair ![10, -10] [slope])) ∧
    let J := momentum 3 w.ps - momentum 3 pair - (t * (2 * 3)) • ![10, -10]
    J 0 = -(1 / 2 * J 1) := by
  obtain ⟨r, h, t, w, hw⟩ := one_step_run musl (pm := .vm) (.inl rfl) (ps := pair) (by simp [pair])
    (fun p hp => (pair_rest p hp).1) ![10, -10] [slope]
  have hev : .particles 1 t w ∈
      filesOf (runProgram (setup musl 1 .vm) true false 10 (start pair ![10, -10] [slope])) := by
    rw [h]; exact hw
  refine ⟨t, w, hev, ?_⟩
  obtain ⟨c, u, -, -, -, hc, h1⟩ := C73_sliding (R := setup musl 1 .vm) (s := start pair ![10, -10] [slope])
    (deg := .two) (dx := 1) (fr := -19 / 20) (m := 3) (vol := 1) (a := 0) (b := 1) (σ := 1) (κ := 1 / 2) (τ := 1)
    rfl (by simp) one_pos (by norm_num)
    rfl rfl rfl (fun _ _ => by simp [setup]) (by norm_num [setup, cfg, exConfig])
    (fun _ _ _ _ h => pair_step musl h) (by simp) rfl (p := slope) rfl rfl rfl rfl rfl (by norm_num) (.inl rfl)
    (by
      intro s1 dt g w hst i hi v hv hm q hq hin hneg
      obtain ⟨e1, e2⟩ := pair_velocity musl hst _ v hm hv
      rw [e2] at hq
      simp only [List.mem_cons, List.not_mem_nil, or_false] at hq
      subst hq
      subst e1
      simp [slope] at hneg ⊢
      rw [abs_of_pos hneg]
      linarith) hev (by simp [start])
  have := h1.1
  rw [(hc rfl).1] at this
  simpa [start, pair, dotProduct] using this

end
end Verif.Props.RunEx
