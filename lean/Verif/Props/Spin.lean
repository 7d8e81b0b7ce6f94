import Verif.Props.Coulomb
import Verif.Props.Stress

set_option linter.unusedSectionVars false
set_option linter.unusedSimpArgs false
set_option linter.unusedVariables false

/-!
# C81: angular momentum and spin of whole runs
-/

namespace Verif.Props
open Verif Matrix

section step
variable {K : Type*} [Field K] [LinearOrder K] [IsStrictOrderedRing K] [FloorRing K] {d : ℕ}

/-- The torque (or angular momentum) of a force (or momentum) `f` at the position `x`; entry `(1,0)` is
`f_y x - f_x y`. -/
def torque (f x : Fin d → K) : Matrix (Fin d) (Fin d) K := vecMulVec f x - vecMulVec x f

/-- Angular momentum about the centre of mass: total angular momentum minus that of the total momentum attached to the
centre of mass (`firstMoment` over the total mass). -/
def spin (m : K) (ps : List (Particle d K)) : Matrix (Fin d) (Fin d) K :=
  angularMomentum m ps - torque (momentum m ps) (((ps.length : K) * m)⁻¹ • firstMoment m ps)

variable {deg : Deg} {dx fr m vol : K} {mibf : Bool} {g : Axes (d + 2) K} {S : StepParams (d + 2) K}
  {ps : List (Particle (d + 2) K)} {dt : K} {grav : Fin (d + 2) → K}
  {bc : ℕ → (Fin (d + 2) → K) → (Fin (d + 2) → K) → (Fin (d + 2) → K)}
  {plast : Particle (d + 2) K → Particle (d + 2) K} {threads : List (List (Particle (d + 2) K))}

lemma vecMulVec_listSum {α : Type*} (f : Fin d → K) (L : List α) (x : α → Fin d → K) :
    vecMulVec f (L.map x).sum = (L.map fun a => vecMulVec f (x a)).sum := by
  induction L with
  | nil => simp
  | cons a L ih => simp only [List.map_cons, List.sum_cons, vecMulVec_add, ih]

/-- **C81** Angular momentum balance of a step for all schemes with affine part (`flip_ratio < 0`), with arbitrary
walls. `u p` is the velocity by which particle `p` is moved. The total angular momentum changes by the torque of
gravity, the torque of the impulses of the walls on the nodes, and by the last term: what is gained or lost by giving
the particles another velocity than the one they are moved with. In the pure APIC setting there is no such term. -/
theorem C81_step (hS : S.P = mkTransferParams deg dx fr mibf m vol) (hd : deg ≠ .one) (hm : 0 < m)
    (hfr : fr < 0) (hpbc : S.pbc = false) (hcp : S.changePos = false)
    (h : GoodGrid dx g ps) (hn : NoTinyWeights deg dx g ps) (ht : threads.flatten.Perm ps)
    (hk : KeepsMotion plast) (hsym : ∀ p ∈ ps, p.tauᵀ = p.tau) :
    ∃ (F : Particle (d + 2) K → Particle (d + 2) K) (u : Particle (d + 2) K → Fin (d + 2) → K)
      (v : (Fin (d + 2) → ℕ) → Fin (d + 2) → K),
      stepOnGrid S dt grav bc plast g [] threads ps = some (ps.map F) ∧
      (∀ p ∈ ps, (F p).x = p.x + dt • u p ∧ (fr < -1 → (F p).v = u p)) ∧
      (∀ i, IsNode g i → massAt deg dx m ps (nodeAt g i) • v i =
        freeMomentum deg dx fr S.P.apicDinverse m vol dt grav ps (nodeAt g i)) ∧
      angularMomentum m (ps.map F) = angularMomentum m ps + dt • torque grav (firstMoment m ps) +
        ∑ i ∈ gridIndices g, massAt deg dx m ps (nodeAt g i) •
          torque (bc (flatIndex g.size i) (nodeAt g i) (v i) - v i) (nodeAt g i) +
        (ps.map fun p => m • torque ((F p).v - u p) (F p).x).sum := by
  have hP : S.P.deg = deg := by rw [hS]; rfl
  have hP1 : S.P.oneOverDx = 1 / dx := by rw [hS]; rfl
  have hPm : S.P.particleMass = m := by rw [hS]; rfl
  have hPv : S.P.flipRatio = fr := by rw [hS]; rfl
  obtain ⟨F, hF, hF2⟩ := stepOnGrid_eq (S := S) (dt := dt) (grav := grav) (bc := bc) hP hP1 h ht hk
  set e := stepEuler S deg dx dt grav bc g ps with he
  set vol' := S.P.particleVolume
  set u : Particle (d + 2) K → Fin (d + 2) → K := fun p => interpV g.size e.v (stencilOf deg dx g p.x) with hu
  set v : (Fin (d + 2) → ℕ) → Fin (d + 2) → K := fun i => beforeWalls S deg dx dt grav g ps (flatIndex g.size i)
    with hv
  have hx : ∀ p ∈ ps, (F p).x = p.x + dt • u p := by
    intro p hp
    obtain ⟨-, -, -, h4, -⟩ := hF2 p hp
    rw [h4]
    simp only [positionParticle, hpbc, hcp, Bool.false_eq_true, if_false, g2pTransfer, hu, he]
  refine ⟨F, u, v, hF, fun p hp => ⟨hx p hp, fun hf => ?_⟩, fun i hi => (node_values hS hm h hi).2, ?_⟩
  · rw [(hF2 p hp).1]
    have hc : S.P.flipRatio < -1 := by rw [hPv]; exact hf
    simp only [blendVelocity, hc, if_true, g2pTransfer, hu, he]
  have hc0 : S.P.flipRatio < 0 := by rw [hPv]; exact hfr
  -- the new particle tensor
  have hnew : ∀ p ∈ ps, m • (vecMulVec (F p).v (F p).x + (F p).Bmat) =
      m • (vecMulVec (u p) p.x + interpB g.size e.v (stencilOf deg dx g p.x) p.x) +
      (m * dt) • vecMulVec (u p) (u p) + m • vecMulVec ((F p).v - u p) (F p).x := by
    intro p hp
    have h3 := (hF2 p hp).2.2.1
    rw [h3, hx p hp]
    simp only [g2pTransfer, hc0, if_true, vecMulVec_add, vecMulVec_smul, smul_add, smul_smul, sub_eq_add_neg,
      add_vecMulVec, neg_vecMulVec, ← he, hu, smul_neg]
    abel
  have hgrid := sum_g2p_moment (P := S.P) (deg := deg) h hn e.v
  have hnode : ∀ i ∈ gridIndices g, m • ((raw S.P deg dx g ps (flatIndex g.size i)).mass •
        vecMulVec (e.v (flatIndex g.size i)) (posAt g (flatIndex g.size i))) =
      (m • vecMulVec (raw S.P deg dx g ps (flatIndex g.size i)).v (posAt g (flatIndex g.size i)) -
      (dt * vol') • vecMulVec (raw S.P deg dx g ps (flatIndex g.size i)).force (posAt g (flatIndex g.size i)) +
      (dt * m) • vecMulVec grav ((raw S.P deg dx g ps (flatIndex g.size i)).mass • posAt g (flatIndex g.size i))) +
      massAt deg dx m ps (nodeAt g i) •
        vecMulVec (bc (flatIndex g.size i) (nodeAt g i) (v i) - v i) (nodeAt g i) := by
    intro i hi
    have hin := mem_gridIndices.mp hi
    have hw := (euler_node_wall (P := S.P) (deg := deg) (dx := dx) (dt := dt) (grav := grav) (bc := bc) (ps := ps)
      (by rw [hPm]; exact hm) hin).1
    have hM := (node_values (dt := dt) (grav := grav) hS hm h hin).1
    have hM' : (raw S.P deg dx g ps (flatIndex g.size i)).mass * m = massAt deg dx m ps (nodeAt g i) := by
      rw [← hM, finish_mass, hPm]
    change _ = _ + _ • (bc _ _ (v i) - v i) at hw
    rw [hM, hPm] at hw
    have h2 := congrArg (fun y => vecMulVec y (posAt g (flatIndex g.size i))) hw
    simp only [sub_eq_add_neg, add_vecMulVec, neg_vecMulVec, smul_vecMulVec] at h2
    rw [smul_smul, mul_comm m, hM']
    refine h2.trans ?_
    rw [posAt_flat hin]
    simp only [sub_eq_add_neg, vecMulVec_smul, add_vecMulVec, neg_vecMulVec]
    congr 2
    rw [smul_smul]; congr 1
    rw [← hM']; ring
  have hJ : ((ps.map F).map fun q => m • (vecMulVec q.v q.x + q.Bmat)).sum =
      (ps.map fun p => m • (vecMulVec p.v p.x + p.Bmat)).sum -
      (dt * vol') • (ps.map fun p => p.tau).sum +
      (dt * m) • vecMulVec grav (ps.map fun p => p.x).sum +
      ∑ i ∈ gridIndices g, massAt deg dx m ps (nodeAt g i) •
        vecMulVec (bc (flatIndex g.size i) (nodeAt g i) (v i) - v i) (nodeAt g i) +
      (ps.map fun p => (m * dt) • vecMulVec (u p) (u p)).sum +
      (ps.map fun p => m • vecMulVec ((F p).v - u p) (F p).x).sum := by
    have hmap : ((ps.map F).map fun q => m • (vecMulVec q.v q.x + q.Bmat)) =
        ps.map fun p => (m • (vecMulVec (u p) p.x + interpB g.size e.v (stencilOf deg dx g p.x) p.x) +
      (m * dt) • vecMulVec (u p) (u p)) + m • vecMulVec ((F p).v - u p) (F p).x := by
      rw [List.map_map]
      exact List.map_congr_left fun p hp => hnew p hp
    rw [hmap, sum_map_add', sum_map_add']
    congr 2
    rw [sum_map_smul, hgrid, ← sum_gridIndices g fun l => (raw S.P deg dx g ps l).mass • vecMulVec (e.v l) (posAt g l),
      Finset.smul_sum, Finset.sum_congr rfl hnode, Finset.sum_add_distrib]
    congr 1
    rw [sum_gridIndices g fun l => m • vecMulVec (raw S.P deg dx g ps l).v (posAt g l) -
      (dt * vol') • vecMulVec (raw S.P deg dx g ps l).force (posAt g l) +
      (dt * m) • vecMulVec grav ((raw S.P deg dx g ps l).mass • posAt g l)]
    rw [Finset.sum_add_distrib,
      Finset.sum_sub_distrib, ← Finset.smul_sum, ← Finset.smul_sum, ← Finset.smul_sum,
      sum_raw_vMoment (P := S.P) hc0 h hn (by rw [hS]; exact apic_D hd h),
      sum_raw_fMoment hd h hn, sum_map_smul]
    congr 2
    rw [← sum_raw_pos (P := S.P) h hn]
    ext a b
    simp only [Matrix.sum_apply, vecMulVec_apply, Finset.sum_apply, Finset.mul_sum]
  have htau : ((ps.map fun p => p.tau).sum)ᵀ = (ps.map fun p => p.tau).sum := by
    rw [listSum_transpose, List.map_map]
    congr 1
    exact List.map_congr_left fun p hp => hsym p hp
  have hpic : (ps.map fun p => (m * dt) • vecMulVec (u p) (u p)).sumᵀ =
      (ps.map fun p => (m * dt) • vecMulVec (u p) (u p)).sum := by
    rw [listSum_transpose, List.map_map]
    congr 1
    exact List.map_congr_left fun p hp => by
      simp only [Function.comp, transpose_smul, transpose_vecMulVec]
  have hgr : dt • torque grav (firstMoment m ps) = (dt * m) • vecMulVec grav (ps.map fun p => p.x).sum -
      ((dt * m) • vecMulVec grav (ps.map fun p => p.x).sum)ᵀ := by
    simp only [torque, firstMoment, sum_map_smul, vecMulVec_smul, smul_vecMulVec, transpose_smul, transpose_vecMulVec,
      smul_sub, smul_smul]
  have hwl : ∑ i ∈ gridIndices g, massAt deg dx m ps (nodeAt g i) •
          torque (bc (flatIndex g.size i) (nodeAt g i) (v i) - v i) (nodeAt g i) =
      (∑ i ∈ gridIndices g, massAt deg dx m ps (nodeAt g i) •
        vecMulVec (bc (flatIndex g.size i) (nodeAt g i) (v i) - v i) (nodeAt g i)) -
      (∑ i ∈ gridIndices g, massAt deg dx m ps (nodeAt g i) •
        vecMulVec (bc (flatIndex g.size i) (nodeAt g i) (v i) - v i) (nodeAt g i))ᵀ := by
    simp only [Matrix.transpose_sum, ← Finset.sum_sub_distrib, transpose_smul, transpose_vecMulVec, torque, smul_sub]
  have hfl : (ps.map fun p => m • torque ((F p).v - u p) (F p).x).sum =
      (ps.map fun p => m • vecMulVec ((F p).v - u p) (F p).x).sum -
      (ps.map fun p => m • vecMulVec ((F p).v - u p) (F p).x).sumᵀ := by
    rw [listSum_transpose, List.map_map, eq_sub_iff_add_eq, ← sum_map_add']
    congr 1
    refine List.map_congr_left fun p hp => ?_
    simp only [Function.comp, transpose_smul, transpose_vecMulVec, torque, smul_sub]
    abel
  simp only [angularMomentum]
  rw [hJ, hgr, hwl, hfl]
  simp only [transpose_add, transpose_sub, htau, hpic, transpose_smul]
  abel

end step

section run
variable {d : ℕ} {R : Setup (d + 2)} {i e : Bool} {fuel : ℕ} {s : LoopState (d + 2) (World (d + 2))}

/-- No wall acts along axis `b`: there are no walls, or all of them are frictionless and not normal to `b` (and the
friction of the walls is not replaced by that of the material). -/
def FreeAxis (R : Setup (d + 2)) (s : LoopState (d + 2) (World (d + 2))) (b : Fin (d + 2)) : Prop :=
  R.objs = [] ∧ s.w.plates = [] ∨
    R.S.P.useMibf = false ∧ (∀ o ∈ R.objs, ObjectBeside b o) ∧ ∀ p ∈ s.w.plates, PlateBeside b p

lemma freeAxis_collision (hops : FairOps R.ops) {b : Fin (d + 2)} (h : FreeAxis R s b)
    {s1 : LoopState (d + 2) (World (d + 2))} {dt : ℝ} {g : Fin (d + 2) → ℝ} {w : World (d + 2)}
    (hst : StepOf R s s1 dt g w) (gf : ℕ → ℝ) (l : ℕ) (X v : Fin (d + 2) → ℝ) :
    boundaryCollision R.ops R.S.P.useMibf gf dt R.objs s1.w.plates l X v b = v b := by
  rcases h with ⟨ho, hp⟩ | ⟨hm, ho, hp⟩
  · have := run_plates (Q := fun _ => False) (fun _ _ _ h => h) (by simp [hp]) hst
    rw [List.eq_nil_iff_forall_not_mem.mpr this, ho]; rfl
  · rw [hm]
    refine collision_beside hops ho (run_plates ?_ hp hst) l X v
    intro p dt t ⟨a1, a2, a3⟩
    obtain ⟨b1, b2, b3⟩ := hops.move p dt R.C.frameDt t
    exact ⟨by rw [b2]; exact a1, by rw [b3]; exact a2, by rw [b1]; exact a3⟩

/-- **C81** A body keeps its spin. With pure APIC (`flip_ratio < -1`), quadratic or cubic splines and without periodic
boundaries: in every file of a run, for every material, gravity and time steps, with or without MUSL, the angular
momentum about the centre of mass is the initial one, in every plane of axes `a`, `c` along which no wall acts (in free
fall: all of them; on a frictionless floor in 3D: the horizontal one). If gravity has no component in that plane, the
same holds for the total angular momentum. -/
theorem C81_run {deg : Deg} {dx fr m vol : ℝ} {mibf : Bool}
    (hS : R.S.P = mkTransferParams deg dx fr mibf m vol) (hd : deg ≠ .one) (hdx : 0 < dx) (hm : 0 < m) (hfr : fr < -1)
    (hpbc : R.S.pbc = false) (hcp : R.S.changePos = false) (hops : FairOps R.ops)
    (hsched : ∀ k ps, (R.sched k ps).flatten.Perm ps)
    (hn : ∀ s1 dt g w, StepOf R s s1 dt g w → NoTinyWeights deg dx w.g s1.w.ps)
    (hsym : ∀ p ∈ s.w.ps, p.tauᵀ = p.tau) {a c : Fin (d + 2)} (ha : FreeAxis R s a) (hc : FreeAxis R s c)
    {n : ℕ} {t : ℝ} {w : World (d + 2)}
    (hev : .particles n t w ∈ filesOf (runProgram R i e fuel s)) (hnew : .particles n t w ∉ s.out) :
    spin m w.ps a c = spin m s.w.ps a c ∧
    (s.gravity a = 0 → s.gravity c = 0 → angularMomentum m w.ps a c = angularMomentum m s.w.ps a c) := by
  have hbeg : (begin R s).w.ps.length = s.w.ps.length ∧ momentum m (begin R s).w.ps = momentum m s.w.ps ∧
      firstMoment m (begin R s).w.ps = firstMoment m s.w.ps ∧
      angularMomentum m (begin R s).w.ps = angularMomentum m s.w.ps ∧
      ∀ p ∈ (begin R s).w.ps, p.tauᵀ = p.tau := by
    rw [begin_w]
    unfold fillMuI
    by_cases hmi : R.S.P.useMibf = true
    · rw [if_pos hmi]
      refine ⟨by simp, ?_, ?_, ?_, ?_⟩
      · simp only [momentum, List.map_map]; rfl
      · simp only [firstMoment, List.map_map]; rfl
      · simp only [angularMomentum, List.map_map]; rfl
      · simp only [List.mem_map]
        rintro _ ⟨p, hp, rfl⟩
        exact hsym p hp
    · rw [if_neg hmi]
      exact ⟨rfl, rfl, rfl, rfl, hsym⟩
  let Inv : World (d + 2) → ℝ → ℕ → (Fin (d + 2) → ℝ) → Prop := fun w _ _ g =>
    (∀ p ∈ w.ps, p.tauᵀ = p.tau) ∧ (s.gravity a = 0 → g a = 0) ∧ (s.gravity c = 0 → g c = 0) ∧
    spin m w.ps a c = spin m s.w.ps a c ∧
    (s.gravity a = 0 → s.gravity c = 0 → angularMomentum m w.ps a c = angularMomentum m s.w.ps a c)
  have h0 : Inv (begin R s).w 0 s.step s.gravity := by
    refine ⟨hbeg.2.2.2.2, id, id, ?_, fun _ _ => by rw [hbeg.2.2.2.1]⟩
    simp only [spin, hbeg.1, hbeg.2.1, hbeg.2.2.1, hbeg.2.2.2.1]
  have hPdx : R.S.P.dx = dx := by rw [hS]; rfl
  have hstep : ∀ s1 dt g w, StepOf R s s1 dt g w → Inv s1.w s1.time s1.step s1.gravity →
      Inv w (s1.time + dt) (s1.step + 1) g := by
    rintro s1 dt g w hst ⟨i1, i2, i3, i4, i5⟩
    have hgood := physStep_goodGrid hpbc (by rw [hPdx]; exact hdx) (by rw [hS]; rfl) hst.phys
    rw [hPdx] at hgood
    obtain ⟨fr', ha'⟩ := physStep_advance hst.phys
    simp only [advanceStep, hpbc, Bool.false_eq_true, if_false, List.append_nil, Option.bind_eq_bind,
      Option.bind_eq_some_iff] at ha'
    obtain ⟨bg, hbg, qs, hqs, hσ⟩ := ha'
    injection hσ with hσ
    injection hσ with hps _ hgg _
    have hN := hn _ _ _ _ hst
    set bc := boundaryCollision R.ops R.S.P.useMibf fr' dt R.objs s1.w.plates with hbc
    obtain ⟨qs1, v, h1, h2, -, h3⟩ := C69_step (S := R.S) (dt := dt) (grav := g) (bc := bc)
      (plast := plastTotal R dt) (threads := R.sched s1.step s1.w.ps) hS hd hm
      hgood hN (hsched _ _) (plastTotal_keeps R dt)
    obtain ⟨qs2, k1, k2⟩ := C72_step (S := R.S) (dt := dt) (grav := g) (bc := bc)
      (plast := plastTotal R dt) (threads := R.sched s1.step s1.w.ps) hS hd hm hpbc hcp
      hgood hN (hsched _ _) (plastTotal_keeps R dt)
    obtain ⟨F, u, v', j1, j2, -, j3⟩ := C81_step (S := R.S) (dt := dt) (grav := g) (bc := bc)
      (plast := plastTotal R dt) (threads := R.sched s1.step s1.w.ps) hS hd hm (by linarith) hpbc hcp
      hgood hN (hsched _ _) (plastTotal_keeps R dt) i1
    obtain rfl := Option.some.inj (h1.symm.trans k1)
    obtain rfl := Option.some.inj (j1.symm.trans k1)
    rw [← hgg, hqs] at h1
    have hw : w.ps = s1.w.ps.map F := by rw [← hps]; exact Option.some.inj h1
    -- components of the balances
    have hwall : ∀ b, FreeAxis R s b → ∀ l X v, (bc l X v - v) b = 0 := fun b hb l X v => by
      rw [Pi.sub_apply, hbc, freeAxis_collision hops hb hst, sub_self]
    have hmom : ∀ b, FreeAxis R s b → momentum m (s1.w.ps.map F) b =
        momentum m s1.w.ps b + dt * (s1.w.ps.length * m) * g b := by
      intro b hb
      rw [h3]
      simp only [Pi.add_apply, Finset.sum_apply, Pi.smul_apply, smul_eq_mul, hwall b hb, mul_zero,
        Finset.sum_const_zero, add_zero]
    have hfm : ∀ b, firstMoment m (s1.w.ps.map F) b = firstMoment m s1.w.ps b + dt * momentum m (s1.w.ps.map F) b := by
      intro b
      rw [k2]; rfl
    have hang : angularMomentum m (s1.w.ps.map F) a c = angularMomentum m s1.w.ps a c +
        dt * (g a * firstMoment m s1.w.ps c - firstMoment m s1.w.ps a * g c) := by
      rw [j3]
      have hdef : (s1.w.ps.map fun p => m • torque ((F p).v - u p) (F p).x).sum = 0 := by
        rw [List.map_congr_left (g := fun _ => 0) fun p hp => by
          rw [(j2 p hp).2 hfr, sub_self]; simp [torque]]
        simp
      rw [hdef, add_zero]
      simp only [Matrix.add_apply, Matrix.sum_apply, Matrix.smul_apply, torque, Matrix.sub_apply, vecMulVec_apply,
        hwall a ha, hwall c hc, zero_mul, mul_zero, sub_zero, smul_zero, Finset.sum_const_zero, add_zero, smul_eq_mul]
    have hgr : ∀ b, s.gravity b = 0 → s1.gravity b = 0 → g b = 0 := by
      intro b h0 h1
      rw [hst.dt_ge.2]
      unfold rampGravity
      split_ifs <;> simp [h0, h1]
    refine ⟨?_, fun h => hgr a h (i2 h), fun h => hgr c h (i3 h), ?_, fun h1 h2 => ?_⟩
    · intro p hp
      obtain ⟨q, r, x, v, h1, rfl, -⟩ := physStep_particle hst.phys hp
      obtain ⟨out, ho, rfl⟩ := plasticUpdate_some h1
      exact C44_symmetric ho
    · rw [← i4, hw]
      simp only [spin, torque, Matrix.sub_apply, vecMulVec_apply, Pi.smul_apply, smul_eq_mul, List.length_map, hang,
        hfm, hmom a ha, hmom c hc]
      rcases eq_or_ne s1.w.ps [] with he | he
      · simp [he, momentum, firstMoment, angularMomentum]
      · have hM : (s1.w.ps.length : ℝ) * m ≠ 0 := mul_ne_zero (by simpa using he) hm.ne'
        generalize (s1.w.ps.length : ℝ) * m = M at hM
        generalize angularMomentum m s1.w.ps a c = A
        have h1 := mul_inv_cancel₀ hM
        linear_combination (dt * (firstMoment m s1.w.ps a * g c - g a * firstMoment m s1.w.ps c)) * h1
    · rw [hw, hang, hgr a h1 (i2 h1), hgr c h2 (i3 h2), i5 h1 h2]
      ring
  rcases run_particles hev hnew with ⟨rfl, rfl, rfl⟩ | ⟨s1, dt, g, hst, rfl⟩
  · exact h0.2.2.2
  · exact (run_inv (Inv := Inv) h0 hstep hst).2.2.2.2

end run
end Verif.Props
