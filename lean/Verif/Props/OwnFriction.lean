import Verif.Lemmas.Mibf
import Verif.Model.Input
import Verif.Model.Files

set_option linter.unusedSectionVars false
set_option linter.unusedSimpArgs false
set_option linter.unusedVariables false

/-!
# `use_mibf` with a material whose friction coefficient is constant (C92)
-/

namespace Verif.Props
open Verif Matrix

section plastic
variable {d : ℕ}

/-- The material without `use_mibf`. -/
def ownMaterial (m : Material) : Material := { m with useMibf := false }

/-- The state of a plastic update without the friction coefficient. -/
def ownState (st : PState d) : PState d := { st with q := noMuI st.q }

variable {cabs : ℝ → ℝ} {m : Material} {dt : ℝ} {s : Svd d} {t : Trial d} {st : PState d}

lemma viscIncrement_own (dt : ℝ) (closed : Bool) (a b : ℝ) (f g : ℝ → ℝ) (exit : Bool) :
    viscIncrement (ownMaterial m) dt closed a b f g exit = viscIncrement m dt closed a b f g exit := rfl

lemma mccMuI_some (htol : 0 < m.stressTol) {pc? : Option ℝ} {epsVol p q hDev qTrial b : ℝ}
    (h : m.hardening = .expoImpl ∨ m.hardening = .sinhImpl ∨ pc?.isSome) :
    ∃ mu, mccMuI m d pc? epsVol p q hDev qTrial b = some mu := by
  have key : ∀ pc : ℝ, ∃ mu, (if p < -m.beta * pc + m.stressTol ∨ p > pc - m.stressTol then some m.M
      else (fsqrt ((p + m.beta * pc) * (pc - p))).bind fun rr =>
        if m.useDuvautLions = true then fdiv ((m.eMu * hDev - qTrial * (1 - b)) / b) rr else fdiv q rr) = some mu := by
    intro pc
    by_cases hc : p < -m.beta * pc + m.stressTol ∨ p > pc - m.stressTol
    · exact ⟨_, if_pos hc⟩
    · rw [if_neg hc]
      push Not at hc
      have h1 : 0 < (p + m.beta * pc) * (pc - p) := mul_pos (by linarith [hc.1]) (by linarith [hc.2])
      have h2 : Real.sqrt ((p + m.beta * pc) * (pc - p)) ≠ 0 := (Real.sqrt_pos.mpr h1).ne'
      rw [fsqrt, if_neg (not_lt.mpr h1.le), Option.bind_some]
      split_ifs <;> exact ⟨_, by rw [fdiv, if_neg h2]⟩
  unfold mccMuI
  simp only [Option.bind_eq_bind]
  cases hh : m.hardening <;> simp only [hh, Option.bind_some, reduceCtorEq, false_or] at h ⊢
  all_goals first
    | exact key _
    | (obtain ⟨pc, rfl⟩ := Option.isSome_iff_exists.mp h; exact key pc)

lemma mccReturn_pc {allow : Bool} {slope eps p q : ℝ} {exit : Bool} {pc? : Option ℝ} {r : Rma} (hh : m.hardening ≠ .noHard)
    (h : mccReturn cabs m d allow slope eps p q exit = some (pc?, r)) :
    m.hardening = .expoImpl ∨ m.hardening = .sinhImpl ∨ pc?.isSome := by
  unfold mccReturn at h
  cases hc : m.hardening <;> simp only [hc, Option.bind_eq_bind, Option.bind_eq_some_iff, Option.some.injEq, Prod.mk.injEq] at h ⊢
  · exact absurd hc hh
  all_goals first
    | (obtain ⟨_, _, rfl, _⟩ := h; simp)
    | simp

@[simp] lemma own_K : (ownMaterial m).K d = m.K d := rfl
@[simp] lemma own_eMu : (ownMaterial m).eMu = m.eMu := rfl
@[simp] lemma own_fMu : (ownMaterial m).fMu = m.fMu := rfl
@[simp] lemma own_dPre : (ownMaterial m).dPre = m.dPre := rfl
@[simp] lemma own_M : (ownMaterial m).M = m.M := rfl
@[simp] lemma own_c : (ownMaterial m).qCohesion = m.qCohesion := rfl
@[simp] lemma own_prad : (ownMaterial m).usePradhana = m.usePradhana := rfl
@[simp] lemma own_n : (ownMaterial m).viscExponent = m.viscExponent := rfl
@[simp] lemma own_mibf : (ownMaterial m).useMibf = false := rfl
@[simp] lemma own_plastic : (ownMaterial m).plastic = m.plastic := rfl
@[simp] lemma own_return : mccReturn cabs (ownMaterial m) = mccReturn cabs m := rfl
@[simp] lemma own_viscous : mccViscous (ownMaterial m) = mccViscous m := rfl

/-- `plastDPVisc` with `use_mibf` as a separate argument. -/
noncomputable def dpViscWith (mibf : Bool) (m : Material) (dt : ℝ) (s : Svd d) (t : Trial d) (st : PState d) :
    Option (PState d) :=
  let pTrial := -m.K d * t.trace
  let qTrial := m.eMu * t.norm
  let pTip := -m.qCohesion / m.M
  let pShift := if m.usePradhana then -m.K d * st.q.epsPlVolPradhana else 0
  let qYield := m.M * (pTrial + pShift) + m.qCohesion
  let st := if mibf then { st with q := { st.q with muI := m.M } } else st
  let st :=
    if pTrial + pShift < pTip then
      let dg := m.dPre * t.norm
      let vol := (pTip - pTrial) / m.K d
      let h : Fin d → ℝ := fun _ => -pTip / (m.K d * d)
      { st with
        count := st.count + 1
        hencky := h
        q := { st.q with
          F := s.expF h
          deltaGamma := dg / dt
          epsPlDev := st.q.epsPlDev + 1 / m.dPre * dg
          epsPlVol := st.q.epsPlVol + vol
          epsPlVolPradhana :=
            if m.usePradhana then st.q.epsPlVolPradhana + vol else st.q.epsPlVolPradhana } }
    else
      { st with
        q := { st.q with
          epsPlVolPradhana := if m.usePradhana then 0 else st.q.epsPlVolPradhana
          deltaGamma := 0 } }
  if pTrial + pShift > pTip ∧ qTrial > qYield then do
    let r ← viscIncrement m dt (decide (m.viscExponent = 1)) qTrial qYield (fun _ => qYield) (fun _ => 0)
      st.exit
    let muI := if mibf then
        if |pTrial + pShift| < 1e-10 then 1e10
        else (qTrial - m.fMu * r.1 - m.qCohesion) / (pTrial + pShift)
      else st.q.muI
    let h := t.hencky - (1 / m.dPre * r.1) • t.dir
    some
      { count := st.count + 1
        exit := r.2
        hencky := h
        q := { st.q with
          muI := muI
          F := s.expF h
          epsPlDev := st.q.epsPlDev + 1 / m.dPre * r.1
          deltaGamma := r.1 / dt } }
  else some st

lemma dpVisc_eq : plastDPVisc m dt s t st = dpViscWith m.useMibf m dt s t st := rfl
lemma dpVisc_own : plastDPVisc (ownMaterial m) dt s t st = dpViscWith false m dt s t st := rfl

lemma plastDPVisc_own : plastDPVisc (ownMaterial m) dt s t (ownState st) = (plastDPVisc m dt s t st).map ownState := by
  rw [dpVisc_own, dpVisc_eq]
  generalize m.useMibf = b
  unfold dpViscWith
  refine ite_conv (f := Option.map ownState) Iff.rfl (fun hc => ?_) (fun hc => ?_)
  · simp only [ownState, noMuI, Bool.false_eq_true, if_false]
    have ht : ¬ (-m.K d * t.trace + (if m.usePradhana = true then -m.K d * st.q.epsPlVolPradhana else 0) < -m.qCohesion / m.M) :=
      not_lt.mpr hc.1.le
    simp only [if_neg ht, Option.bind_eq_bind, Option.map_bind]
    cases b <;> rfl
  · show some _ = some _
    congr 1
    cases b <;> exact ite_conv (f := ownState) Iff.rfl (fun _ => rfl) (fun _ => rfl)

lemma plastMCC_own (hh : m.hardening ≠ .noHard) (htol : 0 < m.stressTol) :
    plastMCC cabs (ownMaterial m) dt s t (ownState st) = (plastMCC cabs m dt s t st).map ownState := by
  unfold plastMCC
  simp only [own_K, own_eMu, own_fMu, own_dPre, own_M, own_plastic, own_mibf, own_return, own_viscous,
    Bool.false_eq_true, if_false, Option.bind_eq_bind]
  have e1 : (if m.useMibf = true then { st with q := { st.q with muI := m.M } } else st).q.epsPlVol = st.q.epsPlVol := by
    split_ifs <;> rfl
  have e2 : (if m.useMibf = true then { st with q := { st.q with muI := m.M } } else st).exit = st.exit := by
    split_ifs <;> rfl
  have e3 : (ownState st).q.epsPlVol = st.q.epsPlVol := rfl
  have e4 : (ownState st).exit = st.exit := rfl
  simp only [e1, e2, e3, e4]
  cases hr : mccReturn cabs m d true m.M st.q.epsPlVol (-m.K d * t.trace) (m.eMu * t.norm) st.exit with
  | none => rfl
  | some r =>
    obtain ⟨pc?, r⟩ := r
    simp only [Option.bind_some]
    have key : ∀ (v : ℝ × ℝ × Bool), ∃ mu, mccMuI m d pc? (st.q.epsPlVol + -v.1 * (-m.K d * t.trace - r.p) / m.K d) r.p v.2.1
        (m.eMu * t.norm / m.eMu - v.1 * (m.eMu * t.norm - v.2.1) / m.eMu) (m.eMu * t.norm) v.1 = some mu :=
      fun v => mccMuI_some htol (mccReturn_pc hh hr)
    refine ite_conv (f := Option.map ownState) Iff.rfl (fun _ => ?_) (fun _ => ?_)
    · by_cases hp : m.plastic = .mccVisc
      · rw [if_pos hp, if_pos hp]
        cases mccViscous m dt (m.eMu * t.norm) r.q r.exit with
        | none => rfl
        | some v =>
          obtain ⟨mu, hmu⟩ := key v
          by_cases hb : m.useMibf = true
          · simp only [hb, if_true, Option.bind_some, hmu, Option.map_some]; rfl
          · simp only [hb, if_false, Option.bind_some, Option.map_some]; rfl
      · rw [if_neg hp, if_neg hp]
        obtain ⟨mu, hmu⟩ := key (1, r.q, r.exit)
        by_cases hb : m.useMibf = true
        · simp only [hb, if_true, Option.bind_some, hmu, Option.map_some]; rfl
        · simp only [hb, if_false, Option.bind_some, Option.map_some]; rfl
    · show some _ = some _
      congr 1
      split_ifs <;> rfl

lemma plastModel_own (hm : m.plastic ≠ .dpMui ∧ m.plastic ≠ .mccMui)
    (hcam : m.plastic = .mcc ∨ m.plastic = .mccVisc → m.hardening ≠ .noHard ∧ 0 < m.stressTol) :
    plastModel cabs (ownMaterial m) dt s t (ownState st) = (plastModel cabs m dt s t st).map ownState := by
  have hp : (ownMaterial m).plastic = m.plastic := rfl
  unfold plastModel
  rw [hp]
  cases h : m.plastic <;> simp only [h, ne_eq, not_true_eq_false, false_and, and_false] at hm ⊢
  · exact ite_conv (f := Option.map ownState) Iff.rfl (fun _ => rfl) (fun _ => rfl)
  · simp only [Option.map_some, Option.some.injEq]
    unfold plastVM
    exact ite_conv (f := ownState) Iff.rfl (fun _ => rfl) (fun _ => rfl)
  · simp only [Option.map_some, Option.some.injEq]
    unfold plastDP
    exact ite_conv (f := ownState) Iff.rfl (fun _ => rfl) (fun _ =>
      ite_conv (f := ownState) Iff.rfl (fun _ => rfl) (fun _ => rfl))
  · simp only [Option.map_some, Option.some.injEq]
    unfold plastDPSoft
    exact ite_conv (f := ownState) Iff.rfl (fun _ => rfl) (fun _ =>
      ite_conv (f := ownState) Iff.rfl (fun _ => rfl) (fun _ =>
        ite_conv (f := ownState) Iff.rfl (fun _ => rfl) (fun _ => rfl)))
  · exact plastMCC_own (hcam (.inl h)).1 (hcam (.inl h)).2
  · unfold plastVMVisc
    refine ite_conv (f := Option.map ownState) Iff.rfl (fun _ => rfl) (fun _ =>
      ite_conv (f := Option.map ownState) Iff.rfl (fun _ => ?_) (fun _ => rfl))
    simp only [Option.bind_eq_bind, Option.map_bind]
    rfl
  · exact plastDPVisc_own
  · exact plastMCC_own (hcam (.inr h)).1 (hcam (.inr h)).2

lemma plasticity_own {svd : Matrix (Fin d) (Fin d) ℝ → Svd d} (hm : m.plastic ≠ .dpMui ∧ m.plastic ≠ .mccMui)
    (hcam : m.plastic = .mcc ∨ m.plastic = .mccVisc → m.hardening ≠ .noHard ∧ 0 < m.stressTol) (q : Particle d ℝ) (exit : Bool) :
    plasticity cabs svd (ownMaterial m) dt (noMuI q) exit = (plasticity cabs svd m dt q exit).map ownState := by
  have h := plastModel_own (cabs := cabs) (dt := dt) (s := svd q.F) (t := mkTrial (svd q.F).hencky)
    (st := { q := q, hencky := (svd q.F).hencky, count := 0, exit := exit }) hm hcam
  unfold plasticity
  simp only [Option.bind_eq_bind]
  show (plastModel cabs (ownMaterial m) dt (svd q.F) (mkTrial (svd q.F).hencky)
    (ownState { q := q, hencky := (svd q.F).hencky, count := 0, exit := exit })).bind _ = _
  rw [h]
  cases plastModel cabs m dt (svd q.F) (mkTrial (svd q.F).hencky) { q := q, hencky := (svd q.F).hencky, count := 0, exit := exit } <;> rfl

end plastic

section run
variable {d : ℕ}

/-- The same set-up without `use_mibf`; the objects have the friction coefficient `μ`. -/
def ownSetup (μ : ℝ) (R : Setup d) : Setup d :=
  { R with S := { R.S with P := R.S.P.own }, m := ownMaterial R.m, objs := R.objs.map fun o => { o with friction := μ } }

/-- The same world with the friction coefficient `μ` at all plates, and without the coefficients of the particles
and nodes. -/
def ownWorld (μ : ℝ) (w : World d) : World d :=
  { w with ps := w.ps.map noMuI, plates := w.plates.map fun p => { p with friction := μ }, friction := fun _ => 0 }

/-- The friction coefficient has no influence on position and motion of a plate. -/
structure FrictionFree (ops : PlateOps d) : Prop where
  inside : ∀ (p : Plate d) f, ops.inside { p with friction := f } = ops.inside p
  move : ∀ (p : Plate d) f dt fdt t, ops.move { p with friction := f } dt fdt t = { ops.move p dt fdt t with friction := f }

lemma frictionFree2 : FrictionFree plateOps2 := by
  constructor
  · intro p f; obtain ⟨pos, type, bc, fr, lo, up, v, vo, vm, lf⟩ := p; cases type <;> rfl
  · intro p f dt fdt t; obtain ⟨pos, type, bc, fr, lo, up, v, vo, vm, lf⟩ := p; cases type <;> rfl

lemma frictionFree3 : FrictionFree plateOps3 := by
  constructor
  · intro p f; obtain ⟨pos, type, bc, fr, lo, up, v, vo, vm, lf⟩ := p; cases type <;> rfl
  · intro p f dt fdt t; obtain ⟨pos, type, bc, fr, lo, up, v, vo, vm, lf⟩ := p; cases type <;> rfl

lemma boundaryCollision_own {ops : PlateOps d} (hops : FrictionFree ops) {μ : ℝ} {gf gf' : ℕ → ℝ} {dt : ℝ}
    {objs : List (GenObject d)} {plates : List (Plate d)} {l : ℕ} (hl : gf l = μ) :
    boundaryCollision ops false gf' dt (objs.map fun o => { o with friction := μ }) (plates.map fun p => { p with friction := μ }) l =
      boundaryCollision ops true gf dt objs plates l := by
  classical
  funext X v
  unfold boundaryCollision
  have e1 : ∀ X v, collideObjects (wallFriction false gf' l) X (objs.map fun o => { o with friction := μ }) v =
      collideObjects (wallFriction true gf l) X objs v := by
    intro X v
    unfold collideObjects
    rw [List.foldl_map]
    simp only [wallFriction, if_true, Bool.false_eq_true, if_false, hl]
  have e2 : ∀ X v, collidePlates ops.inside ops.rel (wallFriction false gf' l) X (plates.map fun p => { p with friction := μ }) v =
      collidePlates ops.inside ops.rel (wallFriction true gf l) X plates v := by
    intro X v
    unfold collidePlates
    rw [List.foldl_map]
    simp only [wallFriction, if_true, Bool.false_eq_true, if_false, hl]
    congr 1
    funext v p
    have := congrFun (hops.inside p μ) X
    refine ite_conv (f := id) (by rw [this]) (fun _ => rfl) (fun _ => rfl)
  simp only [e1, e2]

variable {R : Setup (d + 2)} {μ : ℝ}

lemma plasticUpdate_own {R : Setup d} (hm : R.m.plastic ≠ .dpMui ∧ R.m.plastic ≠ .mccMui)
    (hcam : R.m.plastic = .mcc ∨ R.m.plastic = .mccVisc → R.m.hardening ≠ .noHard ∧ 0 < R.m.stressTol) (dt : ℝ) (q : Particle d ℝ) :
    plasticUpdate (ownSetup μ R) dt (noMuI q) = (plasticUpdate R dt q).map (Prod.map noMuI id) := by
  unfold plasticUpdate
  show (plasticity R.cabs R.svd (ownMaterial R.m) dt (noMuI q) false).map _ = _
  rw [plasticity_own hm hcam, Option.map_map, Option.map_map]
  rfl

lemma g2pFull_own {R : Setup d} (hm : R.m.plastic ≠ .dpMui ∧ R.m.plastic ≠ .mccMui)
    (hcam : R.m.plastic = .mcc ∨ R.m.plastic = .mccVisc → R.m.hardening ≠ .noHard ∧ 0 < R.m.stressTol) (dt : ℝ) (g : Axes d ℝ)
    (e : EulerArr d ℝ) (ps : List (Particle d ℝ)) :
    g2pFull (ownSetup μ R) dt g e (ps.map noMuI) = (g2pFull R dt g e ps).map (List.map (Prod.map noMuI id)) := by
  unfold g2pFull
  show (withStencils (stencilG2P R.S.P.deg R.S.P.oneOverDx g) (ps.map noMuI)).bind _ =
    ((withStencils (stencilG2P R.S.P.deg R.S.P.oneOverDx g) ps).bind _).map _
  rw [withStencils_own]
  cases withStencils (stencilG2P R.S.P.deg R.S.P.oneOverDx g) ps with
  | none => rfl
  | some ss =>
    simp only [Option.map_some, Option.bind_some]
    refine mapM_conv (fun p => ?_) ss
    unfold g2pFullParticle
    refine ite_conv (f := Option.map (Prod.map noMuI id)) Iff.rfl (fun _ => rfl) (fun _ => ?_)
    exact plasticUpdate_own hm hcam dt
      { g2pTransfer R.S.P g.size e p.1 p.2 with F := trialF dt (interpGrad g.size e.v p.2) (g2pTransfer R.S.P g.size e p.1 p.2).F }

lemma deformFull_own {R : Setup d} (hm : R.m.plastic ≠ .dpMui ∧ R.m.plastic ≠ .mccMui)
    (hcam : R.m.plastic = .mcc ∨ R.m.plastic = .mccVisc → R.m.hardening ≠ .noHard ∧ 0 < R.m.stressTol) (dt : ℝ) (g : Axes d ℝ)
    (v : ℕ → Fin d → ℝ) (ps : List (Particle d ℝ)) :
    deformFull (ownSetup μ R) dt g v (ps.map noMuI) = (deformFull R dt g v ps).map (List.map (Prod.map noMuI id)) := by
  unfold deformFull
  show (withStencils (stencilG2P R.S.P.deg R.S.P.oneOverDx g) (ps.map noMuI)).bind _ =
    ((withStencils (stencilG2P R.S.P.deg R.S.P.oneOverDx g) ps).bind _).map _
  rw [withStencils_own]
  cases withStencils (stencilG2P R.S.P.deg R.S.P.oneOverDx g) ps with
  | none => rfl
  | some ss =>
    simp only [Option.map_some, Option.bind_some]
    refine mapM_conv (fun p => ?_) ss
    unfold deformFullParticle
    exact plasticUpdate_own hm hcam dt
      { p.1 with deltaGamma := 0, F := trialF dt (interpGrad g.size v p.2) p.1.F }

lemma physStep_own (hops : FrictionFree R.ops) (hR : ∀ k ps, (R.sched k ps).flatten.Perm ps) (hpbc : R.S.pbc = false)
    (hmi : R.S.P.useMibf = true) (hm : R.m.plastic ≠ .dpMui ∧ R.m.plastic ≠ .mccMui)
    (hcam : R.m.plastic = .mcc ∨ R.m.plastic = .mccVisc → R.m.hardening ≠ .noHard ∧ 0 < R.m.stressTol)
    (w : World (d + 2)) (hw : ∀ p ∈ w.ps, p.muI = μ) (dt : ℝ) (g : Fin (d + 2) → ℝ) (t : ℝ) (n : ℕ) :
    physStep (ownSetup μ R) (ownWorld μ w) dt g t n = (physStep R w dt g t n).map (Prod.map (ownWorld μ) id) := by
  rw [physStep_eq, physStep_eq]
  have hP : (ownSetup μ R).S.P = R.S.P.own := rfl
  have hpb : (ownSetup μ R).S.pbc = R.S.pbc := rfl
  have hps : (ownWorld μ w).ps = w.ps.map noMuI := rfl
  have hcg : chooseGrid (ownSetup μ R).S ⟨(ownWorld μ w).ps, (ownWorld μ w).box, (ownWorld μ w).g, n⟩ =
      chooseGrid R.S ⟨w.ps, w.box, w.g, n⟩ := by
    have hx : ((w.ps.map noMuI).map fun p => p.x) = w.ps.map fun p => p.x := by
      rw [List.map_map]; rfl
    unfold chooseGrid
    simp only [hps, hx]
    rfl
  rw [hcg]
  cases chooseGrid R.S ⟨w.ps, w.box, w.g, n⟩ with
  | none => rfl
  | some bg =>
    obtain ⟨box, gg⟩ := bg
    simp only [hpb, hpbc, Bool.false_eq_true, if_false, Option.bind_some, List.append_nil, ne_eq, not_true_eq_false, and_false]
    have h1 : P2G (ownSetup μ R).S.P gg ((ownSetup μ R).sched n (ownWorld μ w).ps) =
        (P2G R.S.P gg (R.sched n w.ps)).map fun a l => noFriction (a l) := by
      rw [← P2G_own R.S.P gg, hP]
      refine C03_p2g _ _ _ _ ((hR _ _).trans ?_)
      rw [← List.map_flatten, hps]
      exact ((hR n w.ps).map _).symm
    rw [h1]
    cases harr : P2G R.S.P gg (R.sched n w.ps) with
    | none => rfl
    | some arr =>
      simp only [Option.map_some, Option.bind_some, afterP2G]
      have hfr : ∀ l, 0 < (arr l).mass → (arr l).friction = μ := fun l hl =>
        P2G_same hmi (fun t ht p hp => hw p ((hR n w.ps).mem_iff.mp (List.mem_flatten.mpr ⟨t, ht, hp⟩))) harr l hl.ne'
      have he : eulerUpdate (ownSetup μ R).S.P dt g (boundaryCollision (ownSetup μ R).ops (ownSetup μ R).S.P.useMibf
          (fun l => (noFriction (arr l)).friction) dt (ownSetup μ R).objs (ownWorld μ w).plates) gg (fun l => noFriction (arr l)) =
          eulerUpdate R.S.P dt g (boundaryCollision R.ops R.S.P.useMibf (fun l => (arr l).friction) dt R.objs w.plates) gg arr := by
        refine eulerUpdate_own R.S.P dt g gg arr fun l hl => ?_
        rw [hmi]
        exact boundaryCollision_own hops (hfr l hl)
      rw [he, hps, g2pFull_own hm hcam]
      generalize eulerUpdate R.S.P dt g (boundaryCollision R.ops R.S.P.useMibf (fun l => (arr l).friction) dt R.objs w.plates) gg arr = ev
      cases g2pFull R dt gg ev w.ps with
      | none => rfl
      | some qs =>
        simp only [Option.map_some, Option.bind_some]
        have hmid : (if (ownSetup μ R).S.useMusl = true then
            (MUSL (ownSetup μ R).S.P gg (fun l => (noFriction (arr l)).mass)
              [(qs.map (Prod.map noMuI id)).map (·.1)]).bind fun r =>
              (deformFull (ownSetup μ R) dt gg r.2 r.1.flatten).map fun qs => (qs, r.2)
            else some (qs.map (Prod.map noMuI id), ev.v)) =
            (if R.S.useMusl = true then (MUSL R.S.P gg (fun l => (arr l).mass) [qs.map (·.1)]).bind fun r =>
              (deformFull R dt gg r.2 r.1.flatten).map fun qs => (qs, r.2) else some (qs, ev.v)).map
              (Prod.map (List.map (Prod.map noMuI id)) id) := by
          refine ite_conv (f := Option.map _) Iff.rfl (fun _ => ?_) (fun _ => rfl)
          have e1 : [(qs.map (Prod.map noMuI id)).map (·.1)] = [qs.map (·.1)].map (List.map (noMuI (d := d + 2))) := by
            simp
          have hM : MUSL (ownSetup μ R).S.P gg (fun l => (noFriction (arr l)).mass)
            [(qs.map (Prod.map noMuI id)).map (·.1)] = (MUSL R.S.P gg (fun l => (arr l).mass) [qs.map (·.1)]).map
              (Prod.map (List.map (List.map noMuI)) id) := by
            rw [e1]
            exact MUSL_own R.S.P gg (fun l => (arr l).mass) [qs.map (·.1)]
          rw [hM]
          cases MUSL R.S.P gg (fun l => (arr l).mass) [qs.map (·.1)] with
          | none => rfl
          | some r =>
            simp only [Option.map_some, Option.bind_some, Prod.map_fst, Prod.map_snd]
            rw [← List.map_flatten, deformFull_own hm hcam, Option.map_map, Option.map_map]
            rfl
        rw [hmid]
        cases (if R.S.useMusl = true then (MUSL R.S.P gg (fun l => (arr l).mass) [qs.map (·.1)]).bind fun r =>
              (deformFull R dt gg r.2 r.1.flatten).map fun qs => (qs, r.2) else some (qs, ev.v)) with
        | none => rfl
        | some qs' =>
          simp only [Option.map_some, Option.bind_some, Option.some.injEq, Prod.map_apply, id_eq]
          refine Prod.ext ?_ ?_
          · simp only [ownWorld, List.map_map, World.mk.injEq, true_and]
            refine ⟨?_, ?_, rfl, rfl, rfl⟩
            · rw [Prod.map_fst, List.map_map]
              refine List.map_congr_left fun q _ => ?_
              show positionParticle R.S.P.own R.S.useMusl R.S.pbc R.S.changePos (R.S.L 0) dt (noMuI q.1) = noMuI _
              unfold positionParticle
              rfl
            · refine List.map_congr_left fun p _ => ?_
              exact hops.move p μ dt R.C.frameDt t
          · simp only [Prod.map_fst, List.any_map]
            rfl

/-- A map of worlds that commutes with every step taken in a run commutes with the run. -/
lemma loop_map_reach {C : TimeConfig d} {W W' : Type*} {ph : Physics d W} {ph' : Physics d W'} {f : W → W'} {gf : Fin d → ℝ}
    {s0 : LoopState d W} (hspeed : ∀ w, maxSpeed (ph'.velocities (f w)) = maxSpeed (ph.velocities w))
    (hstep : ∀ k s, Reach C ph gf s0 k s → ∀ dt g t n, ph'.step (f s.w) dt g t n = (ph.step s.w dt g t n).map (Prod.map f id)) :
    ∀ (fuel k : ℕ) (s : LoopState d W), Reach C ph gf s0 k s →
      loop C ph' gf fuel (s.map f id) = (loop C ph gf fuel s).map f id := by
  intro fuel
  induction fuel with
  | zero =>
    intro k s _
    unfold loop
    have h1 : (s.map f id).frame = s.frame := rfl
    rw [h1, finish_map]
    split_ifs <;> rfl
  | succ fuel ih =>
    intro k s hs
    unfold loop
    have h1 : (s.map f id).frame = s.frame := rfl
    rw [h1, finish_map]
    split_ifs with hf
    · have hb := loopBody_map (C := C) (ph := ph) (ph' := ph') (f := f) (γ := LinearMap.id) (Inv := fun w => w = s.w)
        (fun w _ => hspeed w) (fun w dt g t n hw => by subst hw; exact hstep k s hs dt g t n) gf s rfl
      change loopBody C ph' gf (s.map f id) = (loopBody C ph gf s).map f id at hb
      rw [hb]
      cases hb' : loopBody C ph gf s with
      | cont s' => exact ih (k + 1) s' (.next hs hf hb')
      | brk s' => simp only [Next.map]; rw [finish_map]; rfl
      | fail s' => rfl
      | ub => rfl
    · rfl

variable {s : LoopState (d + 2) (World (d + 2))}

/-- **C92** Let the coefficients of all particles be `M` after every step of a run with `use_mibf` (see `C92_constant`,
`C92_camClay`, `C92_druckerPrager`). Then the run is the one without `use_mibf` in which all plates and objects have the
friction coefficient `M`: same end, same steps, same files with the same contents, except for the coefficients. -/
theorem C92_run (hops : FrictionFree R.ops) (hR : ∀ k ps, (R.sched k ps).flatten.Perm ps) (hpbc : R.S.pbc = false)
    (hmi : R.S.P.useMibf = true) (hm : R.m.plastic ≠ .dpMui ∧ R.m.plastic ≠ .mccMui)
    (hcam : R.m.plastic = .mcc ∨ R.m.plastic = .mccVisc → R.m.hardening ≠ .noHard ∧ 0 < R.m.stressTol)
    (hconst : ∀ s1 dt g w, StepOf R s s1 dt g w → ∀ p ∈ w.ps, p.muI = R.m.M) (i e : Bool) (fuel : ℕ) :
    runProgram (ownSetup R.m.M R) i e fuel (s.map (ownWorld R.m.M) id) =
      (runProgram R i e fuel s).map (ownWorld R.m.M) id := by
  have hbegin : ∀ p ∈ (begin R s).w.ps, p.muI = R.m.M := by
    rw [begin_w]
    simp only [fillMuI, hmi, if_true, List.mem_map]
    rintro _ ⟨p, -, rfl⟩
    simp [hm.1, hm.2]
  have hinv : ∀ k s1, Reach R.C (physics R) s.gravity (begin R s) k s1 → ∀ p ∈ s1.w.ps, p.muI = R.m.M := by
    intro k s1 hr
    exact reach_inv (Inv := fun w _ _ _ => ∀ p ∈ w.ps, p.muI = R.m.M) hbegin
      (fun k s1 dt g w hs _ => hconst s1 dt g w ⟨k, hs⟩) hr
  unfold runProgram
  by_cases ha : accepted i R.m.elastic R.m.plastic e = true
  swap
  · rw [if_neg ha]; exact if_neg ha
  rw [if_pos ha]
  refine (if_pos ha).trans ?_
  show simulate R.C (physics (ownSetup R.m.M R)) i R.m.elastic R.m.plastic e fuel _ = _
  rw [simulate_eq ha, simulate_eq ha]
  have key := loop_map_reach (C := R.C) (ph := physics R) (ph' := physics (ownSetup R.m.M R)) (f := ownWorld R.m.M)
    (gf := s.gravity) (s0 := begin R s) (fun w => by simp [physics, ownWorld, noMuI, Function.comp_def])
    (fun k s1 hr dt g t n => physStep_own hops hR hpbc hmi hm hcam s1.w (hinv k s1 hr) dt g t n) fuel 0 (begin R s) .start
  change _ = (loop R.C (physics R) s.gravity fuel (begin R s)).map _ _
  rw [← key]
  have e1 : ownWorld R.m.M (fillMuI R.m R.S.P.useMibf s.w) = ownWorld R.m.M s.w := by
    simp only [fillMuI, hmi, if_true, ownWorld, List.map_map]
    congr 1
  show loop R.C _ s.gravity fuel (startState R.C _) = _
  congr 1
  simp only [begin, startState, LoopState.map, e1]
  have e2 : fillMuI (ownSetup R.m.M R).m (ownSetup R.m.M R).S.P.useMibf (ownWorld R.m.M s.w) = ownWorld R.m.M s.w := rfl
  rw [e2]
  split_ifs
  · simp [Event.map, e1]
  · simp [e1]

lemma const_of (hmi : R.S.P.useMibf = true) (hm : R.m.plastic ≠ .dpMui ∧ R.m.plastic ≠ .mccMui) (hmin : 0 < R.C.minDt)
    {A : Particle (d + 2) ℝ → Prop}
    (hstep : ∀ dt p p', 0 < dt → p.muI = R.m.M → PlasticStep R dt p p' → A p' → p'.muI = R.m.M)
    (hA : ∀ s1 dt g w, StepOf R s s1 dt g w → ∀ p ∈ w.ps, A p) :
    ∀ s1 dt g w, StepOf R s s1 dt g w → ∀ p ∈ w.ps, p.muI = R.m.M := by
  have hini : ∀ p ∈ (begin R s).w.ps, p.muI = R.m.M := by
    rw [begin_w]
    simp only [fillMuI, hmi, if_true, List.mem_map]
    rintro _ ⟨p, -, rfl⟩
    simp [hm.1, hm.2]
  have key : ∀ (l l' : List (Particle (d + 2) ℝ)) (dt : ℝ), 0 < dt → (∀ p ∈ l, p.muI = R.m.M) → (∀ p ∈ l', A p) →
      List.Forall₂ (Updated R dt) l l' → ∀ p ∈ l', p.muI = R.m.M := by
    intro l l' dt hdt hP hA' h
    induction h with
    | nil => simp
    | cons h1 _ ih =>
      have a1 := hstep dt _ _ hdt (hP _ (by simp)) (plasticStep_of h1) (hA' _ (by simp))
      have b2 := ih (fun p hp => hP p (by simp [hp])) fun p hp => hA' p (by simp [hp])
      simpa using ⟨a1, b2⟩
  exact fun s1 dt g w hst => (run_inv (Inv := fun w _ _ _ => ∀ p ∈ w.ps, p.muI = R.m.M) hini (fun s1 dt g w h hP =>
      key _ _ dt (hmin.trans_le h.dt_ge.1) hP (hA _ _ _ _ h) (physStep_forall₂ h.phys)) hst).2

end run

/-! ### simulations -/

section sim
variable {d : ℕ} {s : Sim (d + 2)} {b : Build (d + 2)} {fuel : ℕ}

/-- The simulation without `use_mibf` in which all plates and objects have the friction coefficient `M` of the material. -/
def wallsLikeMaterial (s : Sim d) : Sim d :=
  { s with useMibf := false, plates := s.plates.map fun p => { p with friction := s.M },
           objects := s.objects.map fun o => { o with friction := s.M } }

/-- Two worlds are the same except for the friction coefficients: particles, grid coordinates, nodal masses and
velocities, and the plates. -/
structure SameButFriction (w w' : World d) : Prop where
  ps : w.ps.map (fun p => { p with muI := 0 }) = w'.ps.map fun p => { p with muI := 0 }
  g : w.g = w'.g
  mass : w.mass = w'.mass
  vel : w.vel = w'.vel
  plates : w.plates.map (fun p => { p with friction := 0 }) = w'.plates.map fun p => { p with friction := 0 }

/-- The same kind of file, for the same frame and time, of the same world except for the friction coefficients. -/
def SameFile : Event (World d) → Event (World d) → Prop
  | .info, .info => True
  | .particles n t w, .particles n' t' w' => n = n' ∧ t = t' ∧ SameButFriction w w'
  | .grid n t w, .grid n' t' w' => n = n' ∧ t = t' ∧ SameButFriction w w'
  | .timing k, .timing k' => k = k'
  | _, _ => False

/-- The same end of a run, with the same files. -/
def SameResult : Result d (World d) → Result d (World d) → Prop
  | .refused s, .refused s' => List.Forall₂ SameFile s.out s'.out
  | .finished s, .finished s' => s.time = s'.time ∧ s.frame = s'.frame ∧ s.step = s'.step ∧ SameButFriction s.w s'.w ∧
      List.Forall₂ SameFile s.out s'.out
  | .failed s, .failed s' => s.time = s'.time ∧ s.frame = s'.frame ∧ s.step = s'.step ∧ List.Forall₂ SameFile s.out s'.out
  | .ub, .ub => True
  | .outOfFuel s, .outOfFuel s' => s.time = s'.time ∧ s.frame = s'.frame ∧ s.step = s'.step ∧ SameButFriction s.w s'.w ∧
      List.Forall₂ SameFile s.out s'.out
  | _, _ => False

lemma sameButFriction_own (μ : ℝ) (w : World d) : SameButFriction w (ownWorld μ w) where
  ps := by
    simp only [ownWorld, List.map_map]
    rfl
  g := rfl
  mass := rfl
  vel := rfl
  plates := by
    simp only [ownWorld, List.map_map]
    rfl

lemma sameFile_own (μ : ℝ) (l : List (Event (World d))) : List.Forall₂ SameFile l (l.map (Event.map (ownWorld μ))) := by
  induction l with
  | nil => exact .nil
  | cons a l ih =>
    refine .cons ?_ ih
    cases a with
    | info => exact trivial
    | particles n t w => exact ⟨rfl, rfl, sameButFriction_own μ w⟩
    | grid n t w => exact ⟨rfl, rfl, sameButFriction_own μ w⟩
    | timing k => rfl

lemma sameResult_own (μ : ℝ) (r : Result d (World d)) : SameResult r (r.map (ownWorld μ) id) := by
  cases r with
  | refused s => exact sameFile_own μ s.out
  | finished s => exact ⟨rfl, rfl, rfl, sameButFriction_own μ s.w, sameFile_own μ s.out⟩
  | failed s => exact ⟨rfl, rfl, rfl, sameFile_own μ s.out⟩
  | ub => exact trivial
  | outOfFuel s => exact ⟨rfl, rfl, rfl, sameButFriction_own μ s.w, sameFile_own μ s.out⟩

lemma sim_own (hops : FrictionFree b.ops) (hb : ∀ k ps, (b.sched k ps).flatten.Perm ps) (hpbc : s.pbc = false)
    (hmi : s.useMibf = true) (hm : s.plasticModel ≠ .dpMui ∧ s.plasticModel ≠ .mccMui)
    (hcam : s.plasticModel = .mcc ∨ s.plasticModel = .mccVisc → s.hardeningLaw ≠ .noHard ∧ 0 < s.stressTolerance)
    (h0 : ∀ p ∈ s.particles, p.muI = 0)
    (hconst : ∀ dx m vol, s.dx = some dx → s.particleMass = some m → s.particleVolume = some vol → ∀ s1 dt g w,
      StepOf (s.setup b (Nat.succ_pos _) dx m vol) s.fresh s1 dt g w → ∀ p ∈ w.ps, p.muI = s.M) :
    SameResult (s.simulate b fuel) ((wallsLikeMaterial s).simulate b fuel) := by
  have hf : (wallsLikeMaterial s).fresh = s.fresh.map (ownWorld s.M) id := by
    have : s.particles.map noMuI = s.particles := by
      conv_rhs => rw [← List.map_id s.particles]
      refine List.map_congr_left fun p hp => ?_
      unfold noMuI
      rw [← h0 p hp]
      rfl
    simp only [Sim.fresh, wallsLikeMaterial, LoopState.map, World.gridless, ownWorld, this]
    rfl
  unfold Sim.simulate
  show SameResult _ (if accepted s.isInitialized s.elasticModel s.plasticModel s.exit then
    match s.dx, s.particleMass, s.particleVolume with
    | some dx, some mass, some vol => runProgram ((wallsLikeMaterial s).setup b (Nat.succ_pos _) dx mass vol) s.isInitialized s.exit fuel
        (wallsLikeMaterial s).fresh
    | _, _, _ => .ub
  else .refused (wallsLikeMaterial s).fresh)
  rw [hf]
  by_cases ha : accepted s.isInitialized s.elasticModel s.plasticModel s.exit = true
  swap
  · rw [if_neg ha, if_neg ha]
    exact sameFile_own s.M s.fresh.out
  rw [if_pos ha, if_pos ha]
  cases hx : s.dx with
  | none => exact trivial
  | some dx =>
    cases hy : s.particleMass with
    | none => exact trivial
    | some mass =>
      cases hz : s.particleVolume with
      | none => exact trivial
      | some vol =>
        have h := C92_run (R := s.setup b (Nat.succ_pos _) dx mass vol) (s := s.fresh) hops hb hpbc hmi hm hcam
          (hconst dx mass vol hx hy hz) s.isInitialized s.exit fuel
        have h' : runProgram ((wallsLikeMaterial s).setup b (Nat.succ_pos _) dx mass vol) s.isInitialized s.exit fuel
          (s.fresh.map (ownWorld s.M) id) = _ := h
        simp only [h']
        exact sameResult_own s.M _

/-- **C92** Elastic, von Mises, viscous von Mises and rate-independent Drucker-Prager material: `use_mibf` is the same as
giving all plates and objects the friction coefficient `M`. -/
theorem C92_constant (hops : FrictionFree b.ops) (hb : ∀ k ps, (b.sched k ps).flatten.Perm ps) (hpbc : s.pbc = false)
    (hmi : s.useMibf = true) (hmin : 0 < s.minDt) (h0 : ∀ p ∈ s.particles, p.muI = 0)
    (hm : s.plasticModel = .noPlasticity ∨ s.plasticModel = .vm ∨ s.plasticModel = .vmVisc ∨ s.plasticModel = .dp ∨
      s.plasticModel = .dpSoft) : SameResult (s.simulate b fuel) ((wallsLikeMaterial s).simulate b fuel) := by
  have hm' : s.plasticModel ≠ .dpMui ∧ s.plasticModel ≠ .mccMui := by rcases hm with h | h | h | h | h <;> simp [h]
  refine sim_own hops hb hpbc hmi hm' (fun h => ?_) h0 fun dx m vol hx hy hz => ?_
  · rcases hm with h' | h' | h' | h' | h' <;> simp [h'] at h
  · refine const_of (R := s.setup b (Nat.succ_pos _) dx m vol) (A := fun _ => True) hmi hm' hmin ?_ (fun _ _ _ _ _ _ _ => trivial)
    rintro dt p p' hdt hp ⟨q, out, x, v, ⟨_, _, _, _, _, _, rfl⟩, ho, -, rfl⟩ -
    exact (C82_constant (m := s.material) hm ho).trans hp

/-- **C92** Cam-Clay material with explicit hardening, rate-independent or Duvaut-Lions. -/
theorem C92_camClay (hops : FrictionFree b.ops) (hb : ∀ k ps, (b.sched k ps).flatten.Perm ps) (hpbc : s.pbc = false)
    (hmi : s.useMibf = true) (hmin : 0 < s.minDt) (h0 : ∀ p ∈ s.particles, p.muI = 0) (ok : MatOk s.material (d + 2))
    (cam : CamOk s.material) (hM : 0 ≤ s.M) (hτ : 0 ≤ s.viscTime)
    (hm : s.plasticModel = .mcc ∨ s.plasticModel = .mccVisc ∧ s.useDuvautLions = true)
    (hh : s.hardeningLaw = .expoExpl ∨ s.hardeningLaw = .sinhExpl) :
    SameResult (s.simulate b fuel) ((wallsLikeMaterial s).simulate b fuel) := by
  have hm' : s.plasticModel ≠ .dpMui ∧ s.plasticModel ≠ .mccMui := by rcases hm with h | ⟨h, -⟩ <;> simp [h]
  refine sim_own hops hb hpbc hmi hm' (fun h => ⟨by rcases hh with h | h <;> simp [h], cam.tol⟩) h0 fun dx m vol hx hy hz => ?_
  refine const_of (R := s.setup b (Nat.succ_pos _) dx m vol) (A := fun _ => True) hmi hm' hmin ?_ (fun _ _ _ _ _ _ _ => trivial)
  rintro dt p p' hdt hp ⟨q, out, x, v, -, ho, -, rfl⟩ -
  exact C82_camClay (m := s.material) ok cam hm hM hmi hh hτ hdt ho

/-- Viscous Drucker-Prager material with viscous time zero: the coefficient is `M`, or `1e10` near zero pressure. -/
lemma dpVisc_coefficient {d : ℕ} {m : Material} {cabs : ℝ → ℝ} {svd : Matrix (Fin d) (Fin d) ℝ → Svd d} {dt : ℝ} {q : Particle d ℝ}
    {exit : Bool} {out : PState d} (ok : MatOk m d) (hm : m.plastic = .dpVisc) (hn : m.viscExponent = 1) (hτ : m.viscTime = 0)
    (hmi : m.useMibf = true) (hs : IsSvd q.F (svd q.F)) (h : plasticity cabs svd m dt q exit = some out) :
    out.q.muI = m.M ∨ out.q.muI = 1e10 := by
  rcases plastDPVisc_friction ok hm hmi hs h rfl rfl rfl rfl with ⟨-, h1⟩ | ⟨h1, h2, r, h3, -, h4⟩
  · exact .inl h1
  rw [h4]
  split_ifs with h5
  · exact .inr rfl
  left
  set X := trialP m (svd q.F) + pressureShift m d q
  have hX : X ≠ 0 := fun h0 => h5 (by rw [h0]; norm_num)
  have hf : m.fMu ≠ 0 := by
    have := ok.hq; have := ok.hmu
    unfold Material.fMu; positivity
  have hr : m.fMu * r.1 = trialQ m (svd q.F) - (m.M * X + m.qCohesion) := by
    simp only [hn, decide_true, viscIncrement, if_true, Option.some.injEq] at h3
    rw [← h3]
    simp only [closedForm, hτ, zero_div, mul_zero, add_zero, mul_one, ite_self]
    field_simp
  rw [hr]
  field_simp
  ring

/-- **C92** Viscous Drucker-Prager material with viscous time zero and exponent one, with or without cohesion (as in the
unit test `BoundaryTest.MIBF`), as long as no particle gets the coefficient `1e10` which stands for a shear stress at a
pressure below `1e-10`. -/
theorem C92_druckerPrager (hops : FrictionFree b.ops) (hb : ∀ k ps, (b.sched k ps).flatten.Perm ps) (hsvd : ∀ F, IsSvd F (b.svd F))
    (hpbc : s.pbc = false) (hmi : s.useMibf = true) (hmin : 0 < s.minDt) (h0 : ∀ p ∈ s.particles, p.muI = 0)
    (ok : MatOk s.material (d + 2)) (hm : s.plasticModel = .dpVisc) (hn : s.viscExponent = 1) (hτ : s.viscTime = 0)
    (hcap : ∀ dx m vol, s.dx = some dx → s.particleMass = some m → s.particleVolume = some vol → ∀ s1 dt g w,
      StepOf (s.setup b (Nat.succ_pos _) dx m vol) s.fresh s1 dt g w → ∀ p ∈ w.ps, p.muI ≠ 1e10) :
    SameResult (s.simulate b fuel) ((wallsLikeMaterial s).simulate b fuel) := by
  have hm' : s.plasticModel ≠ .dpMui ∧ s.plasticModel ≠ .mccMui := by simp [hm]
  refine sim_own hops hb hpbc hmi hm' (fun h => by simp [hm] at h) h0 fun dx m vol hx hy hz => ?_
  refine const_of (R := s.setup b (Nat.succ_pos _) dx m vol) (A := fun p => p.muI ≠ 1e10) hmi hm' hmin ?_ (hcap dx m vol hx hy hz)
  rintro dt p p' hdt hp ⟨q, out, x, v, -, ho, -, rfl⟩ hA
  exact (dpVisc_coefficient (m := s.material) ok hm hn hτ hmi (hsvd _) ho).resolve_right hA

/-- **C92** The contents of the files: the columns written without `use_mibf` are the ones written with it, without the
column of the coefficients. -/
theorem C92_columns {w w' : World d} (h : SameButFriction w w') {m m' : Material} (hq : m.qPrefac = m'.qPrefac)
    (hp : m.plastic = m'.plastic) (hm : m.plastic ≠ .dpMui ∧ m.plastic ≠ .mccMui) :
    particleGroups m' false w'.ps = (particleGroups m true w.ps).filter (fun g => g.names ≠ ["muI"]) ∧
    gridGroups false w' = (gridGroups true w).filter fun g => g.names ≠ ["friction"] := by
  have hcol : ∀ {α : Type} (f : Particle d ℝ → α) (hf : ∀ p, f { p with muI := 0 } = f p), w'.ps.map f = w.ps.map f := by
    intro α f hf
    have := congrArg (List.map f) h.ps
    simp only [List.map_map, Function.comp_def, hf] at this
    exact this.symm
  have hx : ∀ a b c e : String, a ≠ e → ([a, b, c].take d ≠ [e]) := by
    intro a b c e hne
    match d with
    | 0 => simp
    | n + 1 => simp [hne]
  constructor
  · unfold particleGroups
    rw [← hp, ← hq, hcol (fun p => List.ofFn p.x) fun _ => rfl, hcol (fun p => List.ofFn p.v) fun _ => rfl,
      hcol (fun p => [savedP p.tau]) fun _ => rfl, hcol (fun p => [savedQ m.qPrefac p.tau]) fun _ => rfl,
      hcol (fun p => [p.F.det]) fun _ => rfl, hcol (fun p => [p.epsPlVol]) fun _ => rfl,
      hcol (fun p => [p.epsPlDev]) fun _ => rfl, hcol (fun p => [p.deltaGamma]) fun _ => rfl]
    have h1 := hx "x" "y" "z" "muI" (by decide)
    have h2 := hx "vx" "vy" "vz" "muI" (by decide)
    by_cases hn : m.plastic = .noPlasticity
    · simp [hn, h1, h2]
    · by_cases hv : m.plastic = .dpVisc ∨ m.plastic = .mccVisc
      · simp [hn, hm.1, hm.2, h1, h2, hv]
      · simp [hn, hm.1, hm.2, h1, h2, hv]
  · unfold gridGroups
    have h1 := hx "x" "y" "z" "friction" (by decide)
    have h2 := hx "vx" "vy" "vz" "friction" (by decide)
    rw [← h.g, ← h.mass, ← h.vel]
    simp [h1, h2]

end sim
end Verif.Props
