import Verif.Props.GridWalls
import Verif.Props.RunExamples

set_option linter.unusedSectionVars false
set_option linter.unusedSimpArgs false
set_option linter.unusedVariables false

/-!
# C77, C78: concrete runs, and MUSL at a wall
-/

namespace Verif.Props.RunEx
open Verif Matrix
noncomputable section

/-- The file of the only frame. -/
lemma one_frame_of {R : Setup 2} {fr : ℝ} {musl mibf : Bool} (hC : R.C = cfg 1)
    (hS : R.S = ⟨mkTransferParams .two 1 fr mibf 3 1, musl, false, false, 1, none⟩)
    (hsched : ∀ k ps, (R.sched k ps).flatten.Perm ps) (hrob : Robust R) (hnf : NeverFails R.m)
    (hel : R.m.elastic = .hencky)
    {ps : List (Particle 2 ℝ)} (hne : ps ≠ []) (hv : ∀ p ∈ ps, p.v = 0) (g : Fin 2 → ℝ) (pl : List (Plate 2)) :
    ∃ t w, .grid 1 t w ∈ filesOf (runProgram R true false 10 (start ps g pl)) ∧
      .particles 1 t w ∈ filesOf (runProgram R true false 10 (start ps g pl)) := by
  have hcrit := only_begin_of (R := R) hC hne hv g (pl := pl)
  obtain ⟨r, h1, -, t, w, h2, -⟩ := C61_completes (R := R) (s := start ps g pl) (deg := .two) (dx := 1)
    (fr := fr) (m := 3) (vol := 1) (i := true) (e := false) (fuel := 10)
    (by rw [hS]) one_pos (by rw [hS]) rfl hne hsched hrob hnf
    (by rw [hel]; rfl)
    (by rw [hC]; norm_num [cfg, exConfig]) (by norm_num) (by rw [hC]; norm_num [cfg, exConfig])
    (by rw [hC]; norm_num [cfg, exConfig]) (by rw [hC]; rfl) (by rw [hC]; norm_num [cfg, exConfig])
    (fun k s1 hr hk => absurd (hcrit k s1 hr) hk.ne')
  refine ⟨t 1, w 1, ?_⟩
  rw [h1]
  show _ ∈ r.out ∧ _ ∈ r.out
  rw [h2, hC]
  simp [frameFiles, cfg, exConfig]

lemma grid_file (musl : Bool) {ps : List (Particle 2 ℝ)} (hne : ps ≠ []) (hv : ∀ p ∈ ps, p.v = 0) (g : Fin 2 → ℝ)
    (pl : List (Plate 2)) :
    ∃ t w, .grid 1 t w ∈ filesOf (runProgram (setup musl 1 .vm) true false 10 (start ps g pl)) :=
  let ⟨t, w, h, _⟩ := one_frame_of (R := setup musl 1 .vm) (fr := -19 / 20) (musl := musl) (mibf := false) rfl rfl
    (fun _ _ => by simp [setup]) (.inl (.inr (.inl ⟨Ex.mat_ok _, rfl⟩))) (.inr (.inl rfl)) rfl hne hv g pl
  ⟨t, w, h⟩

/-- `C77` for the pair falling on the tray. -/
example (musl : Bool) : ∃ t w, .grid 1 t w ∈
      filesOf (runProgram (setup musl 1 .vm) true false 10 (start pair ![0, -10] tray)) ∧
    ((gridRows w).map fun r => r.2.2).sum = w.ps.length * 3 ∧
    ((gridRows w).map fun r => r.2.2 • r.2.1).sum = momentum 3 w.ps ∧
    ((gridRows w).map fun r => r.1).Nodup := by
  obtain ⟨t, w, hev⟩ := grid_file musl (ps := pair) (by simp [pair]) (fun p hp => (pair_rest p hp).1) ![0, -10] tray
  refine ⟨t, w, hev, ?_, ?_, ?_⟩
  · exact (C77_mass (R := setup musl 1 .vm) (deg := .two) (dx := 1) (fr := -19 / 20) (m := 3) (vol := 1) (mibf := false)
      rfl one_pos (by norm_num) rfl (fun _ _ => by simp [setup]) hev (by simp [start])).2.2
      (fun _ _ _ _ h => pair_step musl h)
  · exact (C77_momentum (R := setup musl 1 .vm) (deg := .two) (dx := 1) (fr := -19 / 20) (m := 3) (vol := 1)
      (mibf := false) rfl (by simp) one_pos (by norm_num) rfl (fun _ _ => by simp [setup])
      (fun _ _ _ _ h => pair_step musl h) hev (by simp [start])).1
  · exact (C77_rows (R := setup musl 1 .vm) (deg := .two) (dx := 1) (fr := -19 / 20) (m := 3) (vol := 1) (mibf := false)
      rfl one_pos (by norm_num) rfl (fun _ _ => by simp [setup]) hev (by simp [start])).2.2.1

/-- `C78` for the pair on the floor. -/
example : ∃ t w, .grid 1 t w ∈
      filesOf (runProgram (setup false 1 .vm) true false 10 (start pair ![0, -10] [floor])) ∧
    ∀ r ∈ gridRows w, 0 < r.2.2 → r.1 1 ≤ 0 → 0 ≤ r.2.1 1 := by
  obtain ⟨t, w, hev⟩ := grid_file false (ps := pair) (by simp [pair]) (fun p hp => (pair_rest p hp).1) ![0, -10] [floor]
  refine ⟨t, w, hev, fun r hr hm hb => ?_⟩
  have := C78_usl (R := setup false 1 .vm) (s := start pair ![0, -10] [floor]) (deg := .two) (dx := 1)
    (fr := -19 / 20) (m := 3) (vol := 1) (b := 1) (q := floor) rfl one_pos (by norm_num) rfl rfl hold2
    (fun _ _ => by simp [setup]) (by norm_num [setup, cfg, exConfig]) (by simp [start])
    rfl rfl (by simp [setup]) (by
      intro p hp
      simp only [start, List.mem_cons, List.not_mem_nil, or_false] at hp
      rw [hp]
      exact ⟨by norm_num [floor], rfl, rfl⟩)
    (fun s1 dt g w hst j _ u hm hu => pair_covers false hst j u hm hu) hev (by simp [start]) r hr hm
    (by simpa [floor, openSide] using hb)
  simpa [floor, openSide] using this

/-- A fixed no-slip floor half a cell below the particle. -/
def lowFloor : Plate 2 := ⟨-1 / 2, .bottom, .noSlip, 0, -9, 9, 0, 0, 1, 0⟩

example : ∃ t w, .grid 1 t w ∈
      filesOf (runProgram (setup false 1 .vm) true false 10 (start pair ![0, -10] [lowFloor])) ∧
    ∃ dt : ℝ, ∀ r ∈ gridRows w, 0 < r.2.2 → r.2.1 = 0 ∨ ¬ Plate.inside2 lowFloor (r.1 + dt • r.2.1) := by
  obtain ⟨t, w, hev⟩ := grid_file false (ps := pair) (by simp [pair]) (fun p hp => (pair_rest p hp).1) ![0, -10] [lowFloor]
  obtain ⟨s1, dt, g, -, -, h⟩ := C78_noslip (R := setup false 1 .vm) (s := start pair ![0, -10] [lowFloor]) (deg := .two)
    (dx := 1) (fr := -19 / 20) (m := 3) (vol := 1) (mibf := false) rfl one_pos (by norm_num) rfl rfl still2
    (fun _ _ => by simp [setup]) rfl (by simp [start, lowFloor]) hev (by simp [start])
  exact ⟨t, w, hev, dt, fun r hr hm => (h r hr hm).imp id fun hh => hh lowFloor (by simp [start])⟩

/-- PIC with MUSL. -/
def picSetup : Setup 2 := { setup true 1 .vm with S := ⟨mkTransferParams .two 1 0 false 3 1, true, false, false, 1, none⟩ }

/-- One particle above the low floor. -/
def single : LoopState 2 (World 2) := start [Particle.init] ![0, -1 / 4] [lowFloor]

lemma single_begin {s1 : LoopState 2 (World 2)} {dt : ℝ} {g : Fin 2 → ℝ} {w : World 2}
    (hst : StepOf picSetup single s1 dt g w) :
    s1.w.ps = [Particle.init] ∧ s1.w.plates = [lowFloor] ∧ g = ![0, -1 / 4] ∧ 0 < dt ∧ dt ≤ 1 := by
  have hdt := hst.dt_le
  have hg := hst.dt_ge.2
  have hdt0 := hst.dt_ge.1
  obtain ⟨k, hr, -⟩ := hst
  have hk := only_begin_of (R := picSetup) rfl (ps := [Particle.init]) (by simp) (by simp [Particle.init])
    ![0, -1 / 4] (pl := [lowFloor]) k s1 hr
  subst hk
  cases hr
  refine ⟨?_, ?_, ?_, ?_, ?_⟩
  · rw [begin_w]; simp [fillMuI, picSetup, setup, single, start, mkTransferParams]
  · rw [begin_w]; simp [fillMuI, picSetup, setup, single, start, mkTransferParams]
  · rw [hg, begin_gravity, rampGravity]; rfl
  · refine lt_of_lt_of_le ?_ hdt0
    norm_num [picSetup, setup, cfg, exConfig]
  · refine hdt.trans (max_le ?_ ?_)
    · exact (ex_dtMax (1 / 10) 1).le
    · norm_num [picSetup, setup, cfg, exConfig]

lemma single_lattice {s1 : LoopState 2 (World 2)} {dt : ℝ} {g : Fin 2 → ℝ} {w : World 2}
    (hst : StepOf picSetup single s1 dt g w) {j : Fin 2 → ℕ} (hj : IsNode w.g j) (a : Fin 2) :
    ∃ k : ℤ, nodeAt w.g j a = k := by
  obtain ⟨m0, h0, h1⟩ := run_lattice (R := picSetup) (dx := 1) rfl one_pos rfl rfl (by simp [single, start]) hst
  obtain ⟨k, hk⟩ := h1 a _ (List.getElem_mem (hj a))
  have hm : m0 a = 0 := by
    rcases (h0 a).1 with ⟨x, hx, e⟩ | ⟨r, hr, _⟩
    · simp only [single, start, List.map_cons, List.map_nil, List.mem_singleton] at hx
      rw [← e, hx]; simp [Particle.init]
    · cases hr
  refine ⟨k, ?_⟩
  rw [nodeAt, List.getD_eq_getElem?_getD, List.getElem?_eq_getElem (hj a), Option.getD_some, hk, hm]
  ring

lemma single_noTiny {s1 : LoopState 2 (World 2)} {dt : ℝ} {g : Fin 2 → ℝ} {w : World 2}
    (hst : StepOf picSetup single s1 dt g w) {j : Fin 2 → ℕ} (hj : IsNode w.g j) :
    shape .two 1 (nodeAt w.g j) (0 : Fin 2 → ℝ) = 0 ∨ 1 / 10 ^ 25 < shape .two 1 (nodeAt w.g j) (0 : Fin 2 → ℝ) := by
  obtain ⟨k0, h0⟩ := single_lattice hst hj 0
  obtain ⟨k1, h1⟩ := single_lattice hst hj 1
  have hN : ∀ k : ℤ, N .two (((0 : ℝ) - k) / 1) = 0 ∨ 1 / 8 ≤ N .two (((0 : ℝ) - k) / 1) := by
    intro k
    have : ((0 : ℝ) - k) / 1 = ((-k : ℤ) : ℝ) := by push_cast; ring
    rw [this]
    exact N2_int _
  simp only [shape, Fin.prod_univ_two, Pi.zero_apply, h0, h1]
  rcases hN k0 with h0 | h0
  · left; rw [h0, zero_mul]
  rcases hN k1 with h1 | h1
  · left; rw [h1, mul_zero]
  right
  have := mul_le_mul h0 h1 (by norm_num) (by linarith)
  refine lt_of_lt_of_le ?_ this
  norm_num

/-- Without walls the node would move with `dt` times gravity. -/
lemma single_free {D dt : ℝ} {g X u : Fin 2 → ℝ} (hm : 0 < massAt .two 1 3 [(Particle.init : Particle 2 ℝ)] X)
    (hu : massAt .two 1 3 [(Particle.init : Particle 2 ℝ)] X • u =
      freeMomentum .two 1 0 D 3 1 dt g [(Particle.init : Particle 2 ℝ)] X) : u = dt • g := by
  have hz : freeMomentum .two 1 0 D 3 1 dt g [(Particle.init : Particle 2 ℝ)] X =
      (dt * massAt .two 1 3 [(Particle.init : Particle 2 ℝ)] X) • g := by
    simp only [freeMomentum]
    rw [List.map_congr_left (g := fun _ => 0),
      List.map_congr_left (f := fun p : Particle 2 ℝ => p.tau *ᵥ shapeGrad Deg.two 1 X p.x) (g := fun _ => 0)]
    · simp
    · intro p hp
      rw [List.mem_singleton.mp (List.mem_of_mem_filter hp)]
      simp [Particle.init]
    · intro p hp
      rw [List.mem_singleton.mp (List.mem_of_mem_filter hp)]
      simp [Particle.init]
  rw [hz, mul_comm, ← smul_smul] at hu
  exact smul_right_injective _ hm.ne' hu

lemma low_collision (gf : ℕ → ℝ) (dt : ℝ) (l : ℕ) (X u : Fin 2 → ℝ) :
    (boundaryCollision plateOps2 false gf dt [] [lowFloor] l X u = 0 ∨
      boundaryCollision plateOps2 false gf dt [] [lowFloor] l X u = u) ∧
    (-1 / 2 < (X + dt • u) 1 → boundaryCollision plateOps2 false gf dt [] [lowFloor] l X u = u) := by
  simp only [boundaryCollision, collideObjects, List.foldl_nil]
  obtain ⟨a1, a2⟩ := noSlip_collision still2 (fr := wallFriction false gf l) (Y := X + dt • u) [lowFloor] u
    (by simp [lowFloor])
  by_cases h : plateOps2.inside lowFloor (X + dt • u)
  · refine ⟨.inl (a1 (.inl ⟨_, List.mem_singleton_self _, h⟩)), fun hlt => ?_⟩
    have h3 : (X + dt • u) 1 - -1 / 2 ≤ 0 := h.2.2
    linarith
  · have := a2 (by simpa using h)
    exact ⟨.inr this, fun _ => this⟩

/-- The particle ends up with a downward velocity. -/
lemma single_falls {s1 : LoopState 2 (World 2)} {dt : ℝ} {g : Fin 2 → ℝ} {w : World 2}
    (hst : StepOf picSetup single s1 dt g w) :
    (∃ q, w.ps = [q] ∧ q.v 1 < 0) ∧
    ∃ j, IsNode w.g j ∧ 1 / 10 ^ 25 < shape .two 1 (nodeAt w.g j) (0 : Fin 2 → ℝ) ∧ nodeAt w.g j 1 ≤ -1 / 2 := by
  obtain ⟨e1, e2, e3, hdt, hdt1⟩ := single_begin hst
  have hgood := physStep_goodGrid (R := picSetup) rfl one_pos rfl hst.phys
  have hgood : GoodGrid 1 w.g s1.w.ps := hgood
  obtain ⟨h1, h2, h3⟩ := physStep_grid (R := picSetup) (deg := .two) (dx := 1) rfl rfl rfl
    (fun _ => by simp [picSetup, setup]) hst.phys hgood
  obtain ⟨F, hF, hF2⟩ := stepOnGrid_eq (S := picSetup.S) (dt := dt) (grav := g) (bc := stepWalls picSetup dt s1.w w)
    (plast := plastTotal picSetup dt) (deg := .two) (dx := 1)
    (threads := picSetup.sched s1.step s1.w.ps) rfl rfl hgood
    (by simp [picSetup, setup]) (plastTotal_keeps picSetup dt)
  have hps : w.ps = s1.w.ps.map F := Option.some.inj (h3.symm.trans hF)
  have hp : (Particle.init : Particle 2 ℝ) ∈ s1.w.ps := by rw [e1]; exact List.mem_singleton_self _
  have hg := hgood.good (deg := .two) hp
  set p : Particle 2 ℝ := Particle.init with hpdef
  have hpx : p.x = 0 := rfl
  rw [hpx] at hg
  set st := stencilOf .two (1 : ℝ) w.g (0 : Fin 2 → ℝ) with hst'
  have hnode : ∀ c, IsNode w.g (st.node c) := fun c a => hg.ok.node_lt c a
  have hw : ∀ c, st.weight c = 0 ∨ 1 / 10 ^ 25 < st.weight c := by
    intro c
    rw [hg.weight c, hg.pos c]
    exact single_noTiny hst (hnode c)
  constructor
  · refine ⟨F p, by rw [hps, e1]; rfl, ?_⟩
    obtain ⟨f1, -⟩ := hF2 p hp
    set E := stepEuler picSetup.S .two 1 dt g (stepWalls picSetup dt s1.w w) w.g s1.w.ps with hE
    have hv : (F p).v = interpV w.g.size E.v st := by
      rw [f1, hpx]
      simp only [blendVelocity, g2pTransfer, picSetup, mkTransferParams]
      norm_num
      rfl
    rw [hv]
    simp only [interpV_eq, Finset.sum_apply, Pi.smul_apply, smul_eq_mul]
    have hEv : ∀ c, (E.v (flatIndex w.g.size (st.node c)) 1 ≤ 0) ∧
        (1 / 10 ^ 25 < st.weight c → -1 / 4 < st.nodePos c 1 → E.v (flatIndex w.g.size (st.node c)) 1 < 0) := by
      intro c
      obtain ⟨n1, n2⟩ := node_values (S := picSetup.S) (deg := .two) (dx := 1) (fr := 0) (mibf := false) (m := 3) (vol := 1)
        (dt := dt) (grav := g) rfl (by norm_num) hgood (hnode c)
      have hat := (eulerUpdate_at picSetup.S.P dt g (stepWalls picSetup dt s1.w w) w.g
        (p2gFinish picSetup.S.P (raw picSetup.S.P .two 1 w.g s1.w.ps)) (hnode c)).1
      have hat' : E.v (flatIndex w.g.size (st.node c)) = _ := hat
      rw [n1] at hat'
      rw [e1] at n2 hat'
      by_cases hpos : massAt .two 1 3 [p] (nodeAt w.g (st.node c)) > 0
      · rw [if_pos hpos] at hat'
        have hu := single_free (D := _) hpos n2
        have hat2 : E.v (flatIndex w.g.size (st.node c)) = boundaryCollision plateOps2 false w.friction dt [] [lowFloor]
            (flatIndex w.g.size (st.node c)) (nodeAt w.g (st.node c)) (dt • g) := by
          rw [← hu, hat']
          simp only [stepWalls, e2, e1]
          rfl
        obtain ⟨b1, b2⟩ := low_collision w.friction dt (flatIndex w.g.size (st.node c)) (nodeAt w.g (st.node c)) (dt • g)
        have hg1 : (dt • g) 1 < 0 := by
          rw [e3]; simp; linarith
        rw [hat2]
        constructor
        · rcases b1 with b1 | b1 <;> rw [b1]
          · exact le_rfl
          · exact hg1.le
        · intro _ hlow
          rw [b2]
          · exact hg1
          · rw [hg.pos c] at hlow
            rw [Pi.add_apply, Pi.smul_apply, e3]
            simp only [smul_eq_mul, Pi.smul_apply, cons_val_one, cons_val_fin_one]
            nlinarith
      · rw [if_neg hpos] at hat'
        have h0 : E.v (flatIndex w.g.size (st.node c)) = 0 := by
          rw [hat']
          simp only [p2gFinish]
          rw [if_neg]
          intro hc
          apply hpos
          rw [← e1, ← n1]
          exact mul_pos (by rw [e1]; exact hc) (by norm_num [picSetup, mkTransferParams])
        rw [h0]
        refine ⟨le_rfl, fun hwc _ => ?_⟩
        exfalso
        apply hpos
        rw [massAt]
        have : shape .two 1 (nodeAt w.g (st.node c)) p.x = st.weight c := by rw [hg.weight c, hg.pos c, hpx]
        rw [List.filter_cons, this]
        simp only [hwc, decide_true, if_true, List.filter_nil, List.map_cons, List.map_nil, List.sum_cons, List.sum_nil, this]
        have := (show (0 : ℝ) < 1 / 10 ^ 25 by positivity).trans hwc
        linarith
    by_contra hc
    rw [not_lt] at hc
    have hterm : ∀ c ∈ Finset.univ, st.weight c * E.v (flatIndex w.g.size (st.node c)) 1 ≤ 0 := fun c _ =>
      mul_nonpos_of_nonneg_of_nonpos (hg.ok.weight_nonneg c) (hEv c).1
    have hz := (Finset.sum_eq_zero_iff_of_nonpos hterm).mp (le_antisymm (Finset.sum_nonpos hterm) hc)
    have hlow : ∀ c, st.weight c * st.nodePos c 1 ≤ st.weight c * (-1 / 4) := by
      intro c
      rcases hw c with h | h
      · rw [h]; simp
      · refine mul_le_mul_of_nonneg_left ?_ (hg.ok.weight_nonneg c)
        by_contra hlt
        have := (hEv c).2 h (not_le.mp hlt)
        have hpos := (show (0 : ℝ) < 1 / 10 ^ 25 by positivity).trans h
        exact (mul_neg_of_pos_of_neg hpos this).ne (hz c (Finset.mem_univ c))
    have hsum := Finset.sum_le_sum fun c (_ : c ∈ Finset.univ) => hlow c
    rw [hg.ok.sum_weight_nodePos 1, ← Finset.sum_mul, hg.ok.sum_weight] at hsum
    norm_num at hsum
  · by_contra hc
    have hge : ∀ c, 0 ≤ st.weight c * st.nodePos c 1 := by
      intro c
      rcases hw c with h | h
      · rw [h, zero_mul]
      · refine mul_nonneg (hg.ok.weight_nonneg c) ?_
        by_contra hneg
        apply hc
        refine ⟨st.node c, hnode c, ?_, ?_⟩
        · rw [← hg.pos c, ← hg.weight c]; exact h
        · obtain ⟨k, hk⟩ := single_lattice hst (hnode c) 1
          rw [hg.pos c, hk, not_le] at hneg
          rw [hk]
          have : k ≤ -1 := by
            have : k < 0 := by exact_mod_cast hneg
            omega
          have : (k : ℝ) ≤ -1 := by exact_mod_cast this
          linarith
    have hz := (Finset.sum_eq_zero_iff_of_nonneg fun c _ => hge c).mp (hg.ok.sum_weight_nodePos 1)
    have h2 := hg.ok.sum_weight_pos_pos (hg.grad2 rfl) 1 1
    simp only [Pi.zero_apply, sub_zero] at h2
    rw [Finset.sum_congr rfl fun c hc => by rw [hz c hc, zero_mul], Finset.sum_const_zero] at h2
    norm_num at h2

/-- **C78** With MUSL `C78_usl` is false: PIC, a particle at rest above a fixed no-slip floor. In the grid file of frame 1 a
node with mass below the floor has a downward velocity. -/
theorem C78_musl_false : ∃ (t : ℝ) (w : World 2), .grid 1 t w ∈ filesOf (runProgram picSetup true false 10 single) ∧
    ∃ r ∈ gridRows w, 0 < r.2.2 ∧ r.1 1 ≤ lowFloor.pos ∧ r.2.1 1 < 0 := by
  obtain ⟨t, w, hev, -⟩ := one_frame_of (R := picSetup) (fr := 0) (musl := true) (mibf := false) rfl rfl
    (fun _ _ => by simp [picSetup, setup]) (.inl (.inr (.inl ⟨Ex.mat_ok _, rfl⟩))) (.inr (.inl rfl)) rfl
    (ps := [Particle.init]) (by simp) (by simp [Particle.init]) ![0, -1 / 4] [lowFloor]
  obtain ⟨s1, dt, g, hst, ht, hlen, hrow⟩ := C78_musl (R := picSetup) (s := single) (deg := .two) (dx := 1) (fr := 0)
    (m := 3) (vol := 1) (mibf := false) rfl one_pos (by norm_num) rfl (fun _ _ => by simp [picSetup, setup]) rfl hev
    (by simp [single, start])
  obtain ⟨-, -, -, -, s1', dt', g', hst2, ht', hmass⟩ := C77_rows (R := picSetup) (s := single) (deg := .two) (dx := 1)
    (fr := 0) (m := 3) (vol := 1) (mibf := false) rfl one_pos (by norm_num) rfl (fun _ _ => by simp [picSetup, setup]) hev
    (by simp [single, start])
  obtain ⟨⟨q, hq, hqv⟩, j, hj, hsh, hlow⟩ := single_falls hst
  have e1 := (single_begin hst).1
  have e1' := (single_begin hst2).1
  have hr : (nodeAt w.g j, w.vel (flatIndex w.g.size j), w.mass (flatIndex w.g.size j)) ∈ gridRows w := by
    rw [gridRows_eq]
    exact List.mem_map_of_mem (f := fun i => (nodeAt w.g i, w.vel (flatIndex w.g.size i), w.mass (flatIndex w.g.size i)))
      (mem_allNodes.mpr hj)
  have hpos0 := (show (0 : ℝ) < 1 / 10 ^ 25 by positivity).trans hsh
  have hM := hmass _ hr
  have hx : (Particle.init : Particle 2 ℝ).x = 0 := rfl
  have hmass' : w.mass (flatIndex w.g.size j) = 3 * shape .two 1 (nodeAt w.g j) (0 : Fin 2 → ℝ) := by
    rw [show w.mass (flatIndex w.g.size j) = _ from hM, e1', massAt, List.filter_cons, hx]
    simp only [hsh, decide_true, if_true, List.filter_nil, List.map_cons, List.map_nil, List.sum_cons, List.sum_nil, hx,
      add_zero]
  have hV := hrow _ hr
  rw [e1, hq] at hV
  simp only [List.zip_cons_cons, List.zip_nil_right, List.filter_cons, hx, hsh, decide_true, if_true, List.filter_nil,
    List.map_cons, List.map_nil, List.sum_cons, List.sum_nil, lt_irrefl, if_false, add_zero, hmass', smul_smul] at hV
  have hvel : w.vel (flatIndex w.g.size j) = q.v :=
    smul_right_injective _ (mul_pos (by norm_num : (0 : ℝ) < 3) hpos0).ne' hV
  refine ⟨t, w, hev, _, hr, ?_, hlow, ?_⟩
  · simp only [hmass']; linarith
  · simp only [hvel]; exact hqv

end
end Verif.Props.RunEx
