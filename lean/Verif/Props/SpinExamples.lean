import Verif.Props.Spin
import Verif.Props.RunExamples

set_option linter.unusedSectionVars false
set_option linter.unusedSimpArgs false
set_option linter.unusedVariables false

/-!
# C81: concrete runs, and the default `flip_ratio`
-/

namespace Verif.Props.RunEx
open Verif Matrix
noncomputable section

/-- The setting of `setup` with another `flip_ratio`. -/
def blended (musl : Bool) (fr : ℝ) : Setup 2 :=
  { setup musl 1 .vm with S := ⟨mkTransferParams .two 1 fr false 3 1, musl, false, false, 1, none⟩ }

/-- Two particles at rest, the first one with an affine velocity field. -/
def twisted (B : Matrix (Fin 2) (Fin 2) ℝ) : List (Particle 2 ℝ) :=
  [{ Particle.init with Bmat := B }, { Particle.init with x := ![1, 0] }]

lemma twisted_rest {B : Matrix (Fin 2) (Fin 2) ℝ} : ∀ p ∈ twisted B, p.v = 0 ∧ p.tau = 0 := by
  intro p hp
  simp only [twisted, List.mem_cons, List.not_mem_nil, or_false] at hp
  rcases hp with rfl | rfl <;> exact ⟨rfl, rfl⟩

lemma blended_robust (musl : Bool) (fr : ℝ) : Robust (blended musl fr) :=
  .inl (.inr (.inl ⟨Ex.mat_ok _, rfl⟩))

lemma blended_run (musl : Bool) (fr : ℝ) (B : Matrix (Fin 2) (Fin 2) ℝ) (g : Fin 2 → ℝ) (pl : List (Plate 2) := []) :
    ∃ t w, .particles 1 t w ∈ filesOf (runProgram (blended musl fr) true false 10 (start (twisted B) g pl)) := by
  have hcrit := only_begin_of (R := blended musl fr) rfl (ps := twisted B) (by simp [twisted])
    (fun p hp => (twisted_rest p hp).1) g (pl := pl)
  obtain ⟨r, h1, -, t, w, h2, -⟩ := C61_completes (R := blended musl fr) (s := start (twisted B) g pl) (deg := .two)
    (dx := 1) (fr := fr) (m := 3) (vol := 1) (i := true) (e := false) (fuel := 10)
    rfl one_pos rfl rfl (by simp [start, twisted]) (fun _ _ => by simp [blended, setup]) (blended_robust _ _)
    (.inr (.inl rfl)) rfl (by norm_num [blended, setup, cfg, exConfig]) (by norm_num)
    (by norm_num [blended, setup, cfg, exConfig])
    (by norm_num [blended, setup, cfg, exConfig]) rfl (by norm_num [blended, setup, cfg, exConfig])
    (fun k s1 hr hk => absurd (hcrit k s1 hr) hk.ne')
  refine ⟨t 1, w 1, ?_⟩
  rw [h1]
  show _ ∈ r.out
  rw [h2]
  simp [frameFiles, blended, setup, cfg, exConfig]

/-- The only step of these runs starts with the given particles; its nodes have integer coordinates. -/
lemma twisted_step (musl : Bool) {fr : ℝ} {B : Matrix (Fin 2) (Fin 2) ℝ} {g : Fin 2 → ℝ} {pl : List (Plate 2)}
    {s1 : LoopState 2 (World 2)} {dt : ℝ} {g' : Fin 2 → ℝ} {w : World 2}
    (hst : StepOf (d := 0) (blended musl fr) (start (twisted B) g pl) s1 dt g' w) :
    s1.w.ps = twisted B ∧ s1.w.plates = pl ∧ g' = g ∧ (∀ i, IsNode w.g i → ∀ a, ∃ k : ℤ, nodeAt w.g i a = k) ∧
      NoTinyWeights .two 1 w.g s1.w.ps := by
  obtain ⟨m0, h0, h1⟩ := run_lattice (d := 0) (R := blended musl fr) (dx := 1) rfl one_pos rfl rfl
    (by simp [start, twisted]) hst
  have hg := hst.dt_ge.2
  obtain ⟨k, hr, -⟩ := hst
  have hk := only_begin_of (R := blended musl fr) rfl (ps := twisted B) (by simp [twisted])
    (fun p hp => (twisted_rest p hp).1) g k s1 hr
  subst hk
  cases hr
  have hw : (begin (d := 0) (blended musl fr) (start (twisted B) g pl)).w.ps = twisted B := by
    rw [begin_w]; simp [fillMuI, blended, start, mkTransferParams]
  have hp : (begin (d := 0) (blended musl fr) (start (twisted B) g pl)).w.plates = pl := by
    rw [begin_w]; simp [fillMuI, blended, start, mkTransferParams]
  have hpos : ∀ p ∈ twisted B, ∀ a, ∃ k : ℤ, p.x a = k := by
    intro p hp a
    simp only [twisted, List.mem_cons, List.not_mem_nil, or_false] at hp
    rcases hp with rfl | rfl
    · exact ⟨0, by simp [Particle.init]⟩
    · fin_cases a
      · exact ⟨1, by simp⟩
      · exact ⟨0, by simp⟩
  have hm : ∀ a, ∃ j : ℤ, m0 a = j := by
    intro a
    rcases (h0 a).1 with ⟨x, hx, e⟩ | ⟨r, hr, _⟩
    · obtain ⟨q, hq, rfl⟩ := List.mem_map.mp hx
      obtain ⟨j, hj⟩ := hpos q hq a
      exact ⟨j, by rw [← e, hj]⟩
    · cases hr
  have hnode : ∀ i, IsNode w.g i → ∀ a, ∃ k : ℤ, nodeAt w.g i a = k := by
    intro j hj a
    obtain ⟨k, hk⟩ := h1 a _ (List.getElem_mem (hj a))
    obtain ⟨z, hz⟩ := hm a
    refine ⟨z + k, ?_⟩
    rw [nodeAt, List.getD_eq_getElem?_getD, List.getElem?_eq_getElem (hj a), Option.getD_some, hk, hz]
    push_cast; ring
  refine ⟨hw, hp, ?_, hnode, ?_⟩
  · rw [hg, begin_gravity, rampGravity]; rfl
  · rw [hw]
    intro q hq j hj
    have hN : ∀ a, N .two ((q.x a - nodeAt w.g j a) / 1) = 0 ∨ 1 / 8 ≤ N .two ((q.x a - nodeAt w.g j a) / 1) := by
      intro a
      obtain ⟨i, hi⟩ := hpos q hq a
      obtain ⟨z, hz⟩ := hnode j hj a
      have : (q.x a - nodeAt w.g j a) / 1 = ((i - z : ℤ) : ℝ) := by rw [hi, hz]; push_cast; ring
      rw [this]
      exact N2_int _
    simp only [shape, Fin.prod_univ_two]
    rcases hN 0 with h0 | h0
    · left; rw [h0, zero_mul]
    rcases hN 1 with h1 | h1
    · left; rw [h1, mul_zero]
    right
    have := mul_le_mul h0 h1 (by norm_num) (by linarith)
    refine lt_of_lt_of_le ?_ this
    norm_num

/-- `C81_run` for a freely falling spinning pair, in any field of gravity. -/
example (musl : Bool) (G : Fin 2 → ℝ) : ∃ t w,
    .particles 1 t w ∈ filesOf (runProgram (blended musl (-2)) true false 10 (start (twisted !![0, -1; 1, 0]) G)) ∧
      spin 3 w.ps 1 0 = 6 := by
  obtain ⟨t, w, hev⟩ := blended_run musl (-2) !![0, -1; 1, 0] G
  refine ⟨t, w, hev, ?_⟩
  have := (C81_run (d := 0) (R := blended musl (-2)) (s := start (twisted !![0, -1; 1, 0]) G) (deg := .two) (dx := 1)
    (fr := -2) (m := 3) (vol := 1) (mibf := false) rfl (by simp) one_pos (by norm_num) (by norm_num) rfl rfl fair2
    (fun _ _ => by simp [blended, setup]) (fun _ _ _ _ h => (twisted_step musl h).2.2.2.2)
    (fun p hp => by rw [(twisted_rest p hp).2]; simp) (a := 1) (c := 0) (.inl ⟨rfl, rfl⟩) (.inl ⟨rfl, rfl⟩) hev
    (by simp [start])).1
  rw [this]
  simp [start, twisted, spin, torque, angularMomentum, momentum, firstMoment, Particle.init, vecMulVec_apply]
  norm_num

/-! ### the default is not APIC -/

lemma shape2 (X x : Fin 2 → ℝ) : shape .two 1 X x = N .two ((x 0 - X 0) / 1) * N .two ((x 1 - X 1) / 1) := by
  simp only [shape, Fin.prod_univ_two]

/-- The shearing field of the first particle. -/
def shear : Matrix (Fin 2) (Fin 2) ℝ := !![0, 0; 1, 0]

lemma shear0 (y : Fin 2 → ℝ) : (shear *ᵥ y) 0 = 0 := by
  simp [shear, Matrix.mulVec, dotProduct, Fin.sum_univ_two]

lemma shear1 (y : Fin 2 → ℝ) : (shear *ᵥ y) 1 = y 0 := by
  simp [shear, Matrix.mulVec, dotProduct, Fin.sum_univ_two]

/-- Node values of the step: no velocity along `x`, and along `y` the momentum of the first particle. -/
lemma shear_nodes {S : StepParams (0 + 2) ℝ} {fr dt : ℝ} (hfr : fr < 0) (hS : S.P = mkTransferParams .two 1 fr false 3 1)
    {g : Axes 2 ℝ} (h : GoodGrid 1 g (twisted shear))
    {bc : ℕ → (Fin 2 → ℝ) → (Fin 2 → ℝ) → (Fin 2 → ℝ)} (hbc : Untouched g bc) {i : Fin 2 → ℕ} (hi : IsNode g i) :
    let e := stepEuler (d := 0) S .two 1 dt 0 bc g (twisted shear)
    let X := nodeAt g i
    let W := massAt .two 1 3 (twisted shear) X
    e.flip (flatIndex g.size i) = 0 ∧ (0 < W → W • e.v (flatIndex g.size i) =
      ![0, if 1 / 10 ^ 25 < shape .two 1 X 0 then 12 * shape .two 1 X 0 * X 0 else 0]) ∧
      (W = 0 → e.v (flatIndex g.size i) = 0) := by
  intro e X W
  have hm : (0 : ℝ) < 3 := by norm_num
  have hPm : S.P.particleMass = 3 := by rw [hS]; rfl
  have hP : S.P.deg = .two := by rw [hS]; rfl
  have hP1 : S.P.oneOverDx = 1 / 1 := by rw [hS]; rfl
  obtain ⟨n1, n2⟩ := node_values (d := 0) (dt := dt) (grav := 0) hS hm h hi
  have hW : 0 ≤ W := by
    refine mul_nonneg hm.le (List.sum_nonneg ?_)
    simp only [List.mem_map, List.mem_filter]
    rintro _ ⟨p, ⟨-, hp⟩, rfl⟩
    exact le_trans (by positivity) (of_decide_eq_true hp).le
  obtain ⟨arr, ha, hnode⟩ := C54_p2g_nodes (deg := .two) (fr := fr) (m := 3) (vol := 1) (mibf := false)
    (threads := [twisted shear]) (by simpa using h)
  have harr : arr = p2gFinish S.P (raw S.P .two 1 g (twisted shear)) := by
    have := P2G_eq (P := S.P) (deg := .two) (ts := [twisted shear]) hP hP1 (by simpa using h)
    rw [hS, ha] at this
    rw [Option.some.inj this, hS]
    simp
  obtain ⟨-, c2, -, c4⟩ := hnode i hi
  simp only [List.flatten_cons, List.flatten_nil, List.append_nil] at c2 c4
  rw [harr] at c2 c4
  have hforce : (p2gFinish S.P (raw S.P .two 1 g (twisted shear)) (flatIndex g.size i)).force = 0 := by
    rw [c2, List.map_congr_left (g := fun _ => 0)]
    · simp
    · intro p hp
      rw [(twisted_rest p (List.mem_of_mem_filter hp)).2]
      simp
  have hinc : incrAt S.P dt 0 (p2gFinish S.P (raw S.P .two 1 g (twisted shear)) (flatIndex g.size i)) = 0 := by
    simp [incrAt, hforce]
  have hat := eulerUpdate_at S.P dt 0 bc g (p2gFinish S.P (raw S.P .two 1 g (twisted shear))) (i := i) hi
  simp only [hinc, add_zero] at hat
  have hU := hbc i hi
  rw [hU] at hat
  simp only [sub_self, ite_self] at hat
  refine ⟨hat.2, fun hpos => ?_, fun hz => ?_⟩
  · rw [show e.v _ = _ from hat.1]
    simp only [beforeWalls, hinc, add_zero] at n2
    rw [n2]
    have hD : S.P.apicDinverse = 4 := by rw [hS]; norm_num [mkTransferParams]
    simp only [freeMomentum, hD, hfr, if_true, smul_zero, add_zero]
    have hz2 : (List.map (fun p : Particle 2 ℝ => p.tau *ᵥ shapeGrad Deg.two 1 (nodeAt g i) p.x)
        (List.filter (fun p => decide (1 / 10 ^ 25 < shape Deg.two 1 (nodeAt g i) p.x)) (twisted shear))).sum = 0 := by
      rw [List.map_congr_left (g := fun _ => 0)]
      · simp
      · intro p hp
        rw [(twisted_rest p (List.mem_of_mem_filter hp)).2]
        simp
    rw [hz2, smul_zero, sub_zero]
    simp only [twisted, List.filter_cons, List.filter_nil, Particle.init]
    by_cases h1 : 1 / 10 ^ 25 < shape .two 1 (nodeAt g i) 0 <;>
      by_cases h2 : 1 / 10 ^ 25 < shape .two 1 (nodeAt g i) ![1, 0] <;>
      simp only [X, h1, h2, decide_true, decide_false, if_true, if_false, Bool.false_eq_true, List.map_cons, List.map_nil,
        List.sum_cons, List.sum_nil, zero_mulVec, smul_zero, add_zero, zero_add, sub_zero] <;>
      ext a <;> fin_cases a <;> simp [shear0, shear1] <;> ring
  · rw [show e.v _ = _ from hat.1]
    refine c4 ?_
    by_contra hne
    have hnn : 0 < W := by
      refine mul_pos hm (List.sum_pos _ ?_ (by simpa using hne))
      simp only [List.mem_map, List.mem_filter]
      rintro _ ⟨p, ⟨-, hp⟩, rfl⟩
      exact lt_of_le_of_lt (by positivity) (of_decide_eq_true hp)
    exact hnn.ne' hz

/-- **C81** is false for the default `flip_ratio = -0.95`: two particles at rest next to each other, one of them with a
shearing affine field, without stress, gravity and walls, lose angular momentum (and, as their momentum is zero, spin)
in their first step, with or without MUSL. -/
theorem C81_default_false (musl : Bool) : ∃ t w,
    .particles 1 t w ∈ filesOf (runProgram (blended musl (-19 / 20)) true false 10 (start (twisted shear) 0)) ∧
      angularMomentum 3 w.ps 1 0 < angularMomentum 3 (twisted shear) 1 0 ∧
      spin 3 w.ps 1 0 < spin 3 (twisted shear) 1 0 := by
  obtain ⟨t, w, hev⟩ := blended_run musl (-19 / 20) shear 0
  refine ⟨t, w, hev, ?_⟩
  obtain ⟨-, -, c, -, -, -, hmom⟩ := C57_momentum (d := 0) (R := blended musl (-19 / 20)) (s := start (twisted shear) 0)
    (deg := .two) (dx := 1) (fr := -19 / 20) (m := 3) (vol := 1) (mibf := false) rfl (by simp) one_pos (by norm_num)
    rfl rfl rfl (fun _ _ => by simp [blended, setup]) (by norm_num [blended, setup, cfg, exConfig])
    (fun _ _ _ _ h => (twisted_step musl h).2.2.2.2) hev (by simp [start])
  have hm0 : momentum 3 (twisted shear) = 0 := by simp [momentum, twisted, Particle.init]
  have hm1 : momentum 3 w.ps = 0 := by
    rw [hmom]
    simp [start, hm0]
  suffices h : angularMomentum 3 w.ps 1 0 < angularMomentum 3 (twisted shear) 1 0 by
    refine ⟨h, ?_⟩
    simpa [spin, hm0, hm1, torque] using h
  rcases run_particles (d := 0) hev (by simp [start]) with ⟨hh, -, -⟩ | ⟨s1, dt, g, hst, rfl⟩
  · cases hh
  obtain ⟨hps, hpl, rfl, hint, hN⟩ := twisted_step musl hst
  have hgood := physStep_goodGrid (d := 0) (R := blended musl (-19 / 20)) rfl one_pos rfl hst.phys
  obtain ⟨fr', ha⟩ := physStep_advance (d := 0) hst.phys
  simp only [advanceStep, show (blended musl (-19 / 20)).S.pbc = false from rfl, Bool.false_eq_true, if_false,
    List.append_nil, Option.bind_eq_bind, Option.bind_eq_some_iff] at ha
  obtain ⟨bg, hbg, qs, hqs, hσ⟩ := ha
  injection hσ with hσ
  injection hσ with hw _ hgg _
  rw [hps] at hgood hN hqs
  rw [hgg] at hqs
  have hun : Untouched w.g (boundaryCollision (blended musl (-19 / 20)).ops (blended musl (-19 / 20)).S.P.useMibf fr' dt
      (blended musl (-19 / 20)).objs s1.w.plates) := by
    intro i _ v
    rw [hpl]; rfl
  set bc := boundaryCollision (blended musl (-19 / 20)).ops (blended musl (-19 / 20)).S.P.useMibf fr' dt
      (blended musl (-19 / 20)).objs s1.w.plates
  have hgood' : GoodGrid 1 w.g (twisted shear) := hgood
  obtain ⟨F, hF, hF2⟩ := stepOnGrid_eq (d := 0) (S := (blended musl (-19 / 20)).S) (dt := dt) (grav := 0) (bc := bc)
    (plast := plastTotal (blended musl (-19 / 20)) dt)
    (threads := (blended musl (-19 / 20)).sched s1.step (twisted shear)) (deg := .two) (dx := 1) rfl rfl hgood'
    (by simp [blended, setup]) (plastTotal_keeps _ dt)
  obtain ⟨F', u, v, j1, j2, -, j3⟩ := C81_step (d := 0) (S := (blended musl (-19 / 20)).S) (dt := dt) (grav := 0) (bc := bc)
    (plast := plastTotal (blended musl (-19 / 20)) dt)
    (threads := (blended musl (-19 / 20)).sched s1.step (twisted shear)) (deg := .two) (dx := 1) (fr := -19 / 20) (m := 3)
    (vol := 1) (mibf := false) rfl (by simp) (by norm_num) (by norm_num) rfl rfl hgood' hN
    (by simp [blended, setup]) (plastTotal_keeps _ dt) (fun p hp => by rw [(twisted_rest p hp).2]; simp)
  have hw1 : w.ps = (twisted shear).map F := by
    rw [← hw]; exact Option.some.inj (hqs.symm.trans hF)
  have hFF : ∀ p ∈ twisted shear, F' p = F p := by
    have := Option.some.inj (j1.symm.trans hF)
    exact fun p hp => List.map_inj_left.mp this p hp
  have hw2 : w.ps = (twisted shear).map F' := by
    rw [hw1]; exact (Option.some.inj (j1.symm.trans hF)).symm
  have hdt : 0 < dt := lt_of_lt_of_le (by norm_num [blended, setup, cfg, exConfig]) hst.dt_ge.1
  set e := stepEuler (d := 0) (blended musl (-19 / 20)).S .two 1 dt 0 bc w.g (twisted shear) with he
  let I : Particle 2 ℝ → Fin 2 → ℝ := fun p => interpV w.g.size e.v (stencilOf .two 1 w.g p.x)
  have hnodes := fun i (hi : IsNode w.g i) => shear_nodes (S := (blended musl (-19 / 20)).S) (dt := dt) (fr := -19 / 20)
    (by norm_num) rfl hgood' hun hi
  have hst' : ∀ p ∈ twisted shear, ∀ c, IsNode w.g ((stencilOf .two 1 w.g p.x).node c) := fun p hp c =>
    (hgood'.good (deg := .two) hp).ok.node_lt c
  have hu : ∀ p ∈ twisted shear, u p = I p ∧ (F' p).v = (1 / 20 : ℝ) • I p := by
    intro p hp
    obtain ⟨f1, -, -, f4, -⟩ := hF2 p hp
    have hx := (j2 p hp).1
    rw [hFF p hp, f4] at hx
    simp only [positionParticle, blended, Bool.false_eq_true, if_false, g2pTransfer] at hx
    have hx' := smul_right_injective _ hdt.ne' (add_left_cancel hx)
    refine ⟨hx'.symm, ?_⟩
    rw [hFF p hp, f1]
    have hfl : interpV w.g.size e.flip (stencilOf .two 1 w.g p.x) = 0 := by
      rw [interpV_eq]
      exact Finset.sum_eq_zero fun c _ => by rw [(hnodes _ (hst' p hp c)).1, smul_zero]
    have hP : (blended musl (-19 / 20)).S.P.flipRatio = -19 / 20 := rfl
    have hv := (twisted_rest p hp).1
    simp only [blendVelocity, hP, g2pTransfer]
    rw [if_neg (by norm_num), if_pos (by norm_num), if_pos (by norm_num), hv, hfl]
    ext a
    simp only [I, Pi.add_apply, Pi.smul_apply, Pi.zero_apply, smul_eq_mul]
    ring
  have hWnn : ∀ X, 0 ≤ massAt .two 1 3 (twisted shear) X := fun X => by
    refine mul_nonneg (by norm_num) (List.sum_nonneg ?_)
    simp only [List.mem_map, List.mem_filter]
    rintro _ ⟨p, ⟨-, hp⟩, rfl⟩
    exact le_trans (by positivity) (of_decide_eq_true hp).le
  have hWpos : ∀ X, ∀ p ∈ twisted shear, 1 / 10 ^ 25 < shape .two 1 X p.x → 0 < massAt .two 1 3 (twisted shear) X := by
    intro X p hp h
    refine mul_pos (by norm_num) (List.sum_pos _ ?_ ?_)
    · simp only [List.mem_map, List.mem_filter]
      rintro _ ⟨p, ⟨-, hp⟩, rfl⟩
      exact lt_of_le_of_lt (by positivity) (of_decide_eq_true hp)
    · intro hnil
      have : p ∈ (twisted shear).filter fun p => 1 / 10 ^ 25 < shape .two 1 X p.x :=
        List.mem_filter.mpr ⟨hp, decide_eq_true h⟩
      rw [List.map_eq_nil_iff.mp hnil] at this
      cases this
  have hI0 : ∀ p ∈ twisted shear, I p 0 = 0 := by
    intro p hp
    simp only [I, interpV_eq, Finset.sum_apply, Pi.smul_apply, smul_eq_mul]
    refine Finset.sum_eq_zero fun c _ => ?_
    obtain ⟨-, n2, n3⟩ := hnodes _ (hst' p hp c)
    rcases (hWnn (nodeAt w.g ((stencilOf .two 1 w.g p.x).node c))).eq_or_lt with h | h
    · rw [n3 h.symm]; simp
    · have := congrFun (n2 h) 0
      simp only [Pi.smul_apply, smul_eq_mul, cons_val_zero] at this
      rw [(mul_eq_zero.mp this).resolve_left h.ne', mul_zero]
  have hI1 : 0 < I { Particle.init with x := ![1, 0] } 1 := by
    have hp : ({ Particle.init with x := ![1, 0] } : Particle 2 ℝ) ∈ twisted shear := by simp [twisted]
    have hp1 : ({ Particle.init with Bmat := shear } : Particle 2 ℝ) ∈ twisted shear := by simp [twisted]
    have hG := hgood'.good (deg := .two) hp
    set st := stencilOf .two 1 w.g ({ Particle.init with x := ![1, 0] } : Particle 2 ℝ).x with hstdef
    have hnd := fun c => hst' _ hp c
    simp only [I, interpV_eq, Finset.sum_apply, Pi.smul_apply, smul_eq_mul]
    have hwt : ∀ c, st.weight c = shape .two 1 (nodeAt w.g (st.node c)) ![1, 0] := fun c => by
      rw [hG.weight, hG.pos]
    have hwt2 : ∀ c, st.weight c = N .two ((1 - nodeAt w.g (st.node c) 0) / 1) *
        N .two ((0 - nodeAt w.g (st.node c) 1) / 1) := fun c => (hwt c).trans (shape2 _ _)
    have hx : ∀ c, 0 < st.weight c → ∃ k : ℤ, nodeAt w.g (st.node c) 0 = k ∧ 0 ≤ k ∧ k ≤ 2 := by
      intro c hc
      obtain ⟨k, hk⟩ := hint _ (hnd c) 0
      rw [hwt2] at hc
      have hN0 : 0 < N .two ((1 - nodeAt w.g (st.node c) 0) / 1 : ℝ) :=
        lt_of_le_of_ne (N_nonneg _ _) fun h => by rw [← h, zero_mul] at hc; exact lt_irrefl _ hc
      rw [hk] at hN0
      simp only [N, N2, cons_val_zero, div_one] at hN0
      have hab : |1 - (k : ℝ)| < 3 / 2 := by
        by_contra hge
        rw [if_neg (by linarith), if_neg (by linarith)] at hN0
        exact lt_irrefl _ hN0
      rw [abs_lt] at hab
      refine ⟨k, hk, ?_, ?_⟩
      · have : (-1 : ℝ) < k := by linarith
        have : (-1 : ℤ) < k := by exact_mod_cast this
        omega
      · have : (k : ℝ) < 3 := by linarith
        have : k < 3 := by exact_mod_cast this
        omega
    have hwn : ∀ c, 0 ≤ st.weight c := fun c => by
      rw [hwt]; exact Finset.prod_nonneg fun a _ => N_nonneg _ _
    have hval : ∀ c, 0 < st.weight c → 0 ≤ e.v (flatIndex w.g.size (st.node c)) 1 ∧
        (nodeAt w.g (st.node c) 0 = 1 → 0 < e.v (flatIndex w.g.size (st.node c)) 1) := by
      intro c hc
      have hpos := hWpos (nodeAt w.g (st.node c)) _ hp (by
        rcases hN _ hp _ (hnd c) with h | h
        · rw [hwt] at hc; exact absurd h hc.ne'
        · exact h)
      have h1 : massAt .two 1 3 (twisted shear) (nodeAt w.g (st.node c)) * e.v (flatIndex w.g.size (st.node c)) 1 =
          if 1 / 10 ^ 25 < shape .two 1 (nodeAt w.g (st.node c)) 0 then
            12 * shape .two 1 (nodeAt w.g (st.node c)) 0 * nodeAt w.g (st.node c) 0 else 0 :=
        congrFun ((hnodes _ (hnd c)).2.1 hpos) 1
      obtain ⟨k, hk, k0, -⟩ := hx c hc
      have hX : 0 ≤ nodeAt w.g (st.node c) 0 := by rw [hk]; exact_mod_cast k0
      constructor
      · by_contra hneg
        have := mul_neg_of_pos_of_neg hpos (not_le.mp hneg)
        rw [h1] at this
        split_ifs at this with hs
        · have : 0 ≤ 12 * shape .two 1 (nodeAt w.g (st.node c)) 0 * nodeAt w.g (st.node c) 0 :=
            mul_nonneg (mul_nonneg (by norm_num) (le_trans (by positivity) hs.le)) hX
          linarith
        · exact lt_irrefl _ this
      · intro hone
        have hs : 1 / 10 ^ 25 < shape .two 1 (nodeAt w.g (st.node c)) 0 := by
          rcases hN _ hp1 _ (hnd c) with h | h
          · exfalso
            rw [hwt2] at hc
            replace h : N .two ((0 - nodeAt w.g (st.node c) 0) / 1 : ℝ) * N .two ((0 - nodeAt w.g (st.node c) 1) / 1 : ℝ) = 0 :=
              (shape2 (nodeAt w.g (st.node c)) 0).symm.trans h
            rw [hone] at h hc
            have h8 : N .two ((0 - 1) / 1 : ℝ) = 1 / 8 := by norm_num [N, N2]
            rw [h8] at h
            have : N .two ((0 - nodeAt w.g (st.node c) 1) / 1 : ℝ) = 0 := by linarith
            rw [this, mul_zero] at hc
            exact lt_irrefl _ hc
          · exact h
        rw [if_pos hs, hone] at h1
        have : 0 < 12 * shape .two 1 (nodeAt w.g (st.node c)) 0 * 1 := by
          have := lt_of_le_of_lt (by positivity) hs
          linarith
        rw [← h1] at this
        exact (mul_pos_iff_of_pos_left hpos).mp this
    have hmid : ∃ c, 0 < st.weight c ∧ nodeAt w.g (st.node c) 0 = 1 := by
      by_contra hno
      push Not at hno
      have h2 := hG.ok.sum_weight_pos_pos (hG.grad2 rfl) 0 0
      rw [if_pos rfl] at h2
      have h3 : ∑ c, st.weight c * (st.nodePos c 0 - ![1, 0] 0) * (st.nodePos c 0 - ![1, 0] 0) = ∑ c, st.weight c := by
        refine Finset.sum_congr rfl fun c _ => ?_
        rcases (hwn c).eq_or_lt with h | h
        · rw [← h]; ring
        · obtain ⟨k, hk, k0, k2⟩ := hx c h
          rw [hG.pos, hk]
          have : k ≠ 1 := fun h1 => hno c h (by rw [hk, h1]; simp)
          have : k = 0 ∨ k = 2 := by omega
          rcases this with rfl | rfl <;> norm_num
      have h4 := hG.ok.sum_weight
      rw [h4] at h3
      have h5 := h2.symm.trans h3
      norm_num at h5
    obtain ⟨c, hc1, hc2⟩ := hmid
    refine Finset.sum_pos' (fun c _ => ?_) ⟨c, Finset.mem_univ _, mul_pos hc1 ((hval c hc1).2 hc2)⟩
    rcases (hwn c).eq_or_lt with h | h
    · rw [← h, zero_mul]
    · exact mul_nonneg h.le (hval c h).1
  rw [hw2, j3]
  have hwl : ∑ i ∈ gridIndices w.g, massAt .two 1 3 (twisted shear) (nodeAt w.g i) •
      torque (bc (flatIndex w.g.size i) (nodeAt w.g i) (v i) - v i) (nodeAt w.g i) = 0 := by
    refine Finset.sum_eq_zero fun i hi => ?_
    rw [hun i (mem_gridIndices.mp hi), sub_self]
    simp [torque]
  rw [hwl]
  have hmap : ((twisted shear).map fun p => (3 : ℝ) • torque ((F' p).v - u p) (F' p).x) =
      (twisted shear).map fun p => (3 : ℝ) • torque ((-19 / 20 : ℝ) • I p) (p.x + dt • I p) := by
    refine List.map_congr_left fun p hp => ?_
    rw [(j2 p hp).1, (hu p hp).1, (hu p hp).2]
    congr 2
    ext a
    simp only [Pi.sub_apply, Pi.smul_apply, smul_eq_mul]
    ring
  rw [hmap]
  have h1 := hI0 _ (List.mem_cons_self : _ ∈ twisted shear)
  have h2 := hI0 { Particle.init with x := ![1, 0] } (by simp [twisted])
  simp only [twisted, List.map_cons, List.map_nil, List.sum_cons, List.sum_nil, add_zero, Matrix.add_apply,
    Matrix.smul_apply, torque, Matrix.sub_apply, vecMulVec_apply, Pi.smul_apply, Pi.add_apply, smul_eq_mul, h1, h2,
    Particle.init, Pi.zero_apply, zero_mul, mul_zero, sub_zero, smul_zero, cons_val_zero, cons_val_one]
  simp only [Particle.init] at hI1
  linarith

end
end Verif.Props.RunEx
