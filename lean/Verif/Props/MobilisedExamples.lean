import Verif.Props.Mobilised
import Verif.Props.GridExamples

set_option linter.unusedSectionVars false
set_option linter.unusedSimpArgs false
set_option linter.unusedVariables false

/-!
# Concrete runs meeting the hypotheses of C82
-/

namespace Verif.Props.RunEx
open Verif Matrix
noncomputable section

/-- `use_mibf` with the given material. -/
def frictional (musl : Bool) (m : Material) : Setup 2 :=
  { setup musl 1 .vm with S := ⟨mkTransferParams .two 1 (-19 / 20) true 3 1, musl, false, false, 1, none⟩, m := m }

/-- A run of the stretched particle on the floor; the node at the floor below it has mass. -/
lemma frictional_run (musl : Bool) {m : Material} (hrob : Robust (frictional musl m)) (hnf : NeverFails m)
    (hel : m.elastic = .hencky) {A : Set ℝ} (hA : FrictionIn (frictional musl m) (start stretched ![0, -10] [floor]) A) :
    ∃ t w, .particles 1 t w ∈ filesOf (runProgram (frictional musl m) true false 10 (start stretched ![0, -10] [floor])) ∧
      w.ps ≠ [] ∧ (∀ p ∈ w.ps, p.muI ∈ A) ∧ ∃ i, IsNode w.g i ∧ 0 < w.mass (flatIndex w.g.size i) ∧
        w.friction (flatIndex w.g.size i) ∈ A := by
  obtain ⟨t, w, hev', hev⟩ := one_frame_of (R := frictional musl m) (fr := -19 / 20) (musl := musl) (mibf := true) rfl rfl
    (fun _ _ => by simp [frictional, setup]) hrob hnf hel (ps := stretched) (by simp [stretched])
    (by simp [stretched, Particle.init]) ![0, -10] [floor]
  obtain ⟨-, hmass, -⟩ := C77_mass (R := frictional musl m) (deg := .two) (dx := 1) (fr := -19 / 20) (m := 3) (vol := 1)
    (mibf := true) rfl one_pos (by norm_num) rfl (fun _ _ => by simp [frictional, setup]) hev' (by simp [start])
  obtain ⟨s1, dt, g, hst, -⟩ := run_grid hev' (by simp [start])
  have hlen : w.ps.length = 1 := by
    refine (run_inv (Inv := fun w _ _ _ => w.ps.length = 1) ?_ (fun s1 dt g w h hP => ?_) hst).2
    · rw [begin_w]; simp [fillMuI, frictional, mkTransferParams, start, stretched]
    · rw [← (physStep_forall₂ h.phys).length_eq, hP]
  refine ⟨t, w, hev, fun h => by simp [h] at hlen, hA.1 _ _ _ _ _ _ hev (by simp [start]), ?_⟩
  have hpos : 0 < ((gridRows w).map fun r => r.2.2).sum := lt_of_lt_of_le (by rw [hlen]; norm_num) hmass
  obtain ⟨i, hi, hm⟩ : ∃ i ∈ allNodes w.g.size, 0 < w.mass (flatIndex w.g.size i) := by
    by_contra hc
    push Not at hc
    rw [gridRows_eq, List.map_map] at hpos
    exact absurd ((List.sum_le_card_nsmul _ (0 : ℝ) fun x hx => by
      obtain ⟨i, hi, rfl⟩ := List.mem_map.mp hx
      exact hc i hi).trans (by simp)) (not_le.mpr hpos)
  exact ⟨i, mem_allNodes.mp hi, hm, hA.2 _ _ _ _ hst i (mem_allNodes.mp hi) hm⟩

/-- `C82_run_constant` -/
example (musl : Bool) := frictional_run musl (m := Ex.mat .vm) (.inl (.inr (.inl ⟨Ex.mat_ok _, rfl⟩))) (.inr (.inl rfl)) rfl
  (C82_run_constant (deg := .two) (dx := 1) (fr := -19 / 20) (m := 3) (vol := 1) rfl one_pos rfl
    (fun _ _ => by simp [frictional, setup]) (by norm_num [frictional, setup, cfg, exConfig]) (.inr (.inl rfl)))

/-- Cam-Clay with explicit hardening. -/
def hardClay (pm : PlasticModel) (hl : HardeningLaw) : Material := { Ex.mat pm with hardening := hl, useMibf := true }

lemma hardClay_ok (pm hl) : MatOk (hardClay pm hl) 2 :=
  ⟨(Ex.mat_ok .mcc).hd, (Ex.mat_ok .mcc).hK, (Ex.mat_ok .mcc).hmu, (Ex.mat_ok .mcc).hq, rfl⟩
lemma hardClay_cam (pm hl) : CamOk (hardClay pm hl) :=
  ⟨by norm_num [hardClay, Ex.mat], by norm_num [hardClay, Ex.mat], by norm_num [hardClay, Ex.mat]⟩

/-- `C82_run_camClay`, with a particle far outside of the ellipse. -/
example (musl : Bool) := frictional_run musl (m := hardClay .mcc .expoExpl)
  (.inr (.inr ⟨hardClay_cam _ _, rfl, rfl, by norm_num [frictional, hardClay, Ex.mat], .inr (by simp [frictional, hardClay]),
    abs_zero⟩)) (.inr (.inr (.inr (.inr (.inr (.inl ⟨rfl, rfl⟩)))))) rfl
  (C82_run_camClay (deg := .two) (dx := 1) (fr := -19 / 20) (m := 3) (vol := 1) rfl one_pos rfl
    (fun _ _ => by simp [frictional, setup]) (by norm_num [frictional, setup, cfg, exConfig]) (hardClay_ok _ _)
    (hardClay_cam _ _) (.inl rfl) (by norm_num [frictional, hardClay, Ex.mat]) rfl (.inl rfl)
    (by norm_num [frictional, hardClay, Ex.mat]))

/-- `C82_run_camClay_nonneg` -/
example (musl : Bool) := frictional_run musl (m := hardClay .mcc .expoExpl)
  (.inr (.inr ⟨hardClay_cam _ _, rfl, rfl, by norm_num [frictional, hardClay, Ex.mat], .inr (by simp [frictional, hardClay]),
    abs_zero⟩)) (.inr (.inr (.inr (.inr (.inr (.inl ⟨rfl, rfl⟩)))))) rfl
  (C82_run_camClay_nonneg (deg := .two) (dx := 1) (fr := -19 / 20) (m := 3) (vol := 1) rfl one_pos rfl
    (fun _ _ => by simp [frictional, setup]) (by norm_num [frictional, setup, cfg, exConfig]) (hardClay_ok _ _)
    (hardClay_cam _ _) (.inl rfl) (by norm_num [frictional, hardClay, Ex.mat]) rfl (by simp [frictional, hardClay])
    (by norm_num [frictional, hardClay, Ex.mat]) (by norm_num [frictional, hardClay, Ex.mat]))

/-- `C82_run_camClay_implicit` and `C82_run_camClay_nonneg` with implicit hardening. -/
example (musl : Bool) : FrictionIn (frictional musl (hardClay .mcc .expoImpl)) (start stretched ![0, -10] [floor])
      (Set.Icc 0 1) ∧
    FrictionIn (frictional musl (hardClay .mccVisc .sinhImpl)) (start stretched ![0, -10] [floor]) (Set.Ici 0) := by
  have hM : (frictional musl (hardClay .mcc .expoImpl)).m.M = 1 := by norm_num [frictional, hardClay, Ex.mat]
  refine ⟨?_, ?_⟩
  · rw [← hM]
    exact C82_run_camClay_implicit (deg := .two) (dx := 1) (fr := -19 / 20) (m := 3) (vol := 1) rfl one_pos rfl
      (fun _ _ => by simp [frictional, setup]) (by norm_num [frictional, setup, cfg, exConfig]) someSvd_isSvd
      (hardClay_ok _ _) (hardClay_cam _ _) rfl (by rw [hM]; norm_num) rfl rfl
  · exact C82_run_camClay_nonneg (deg := .two) (dx := 1) (fr := -19 / 20) (m := 3) (vol := 1) rfl one_pos rfl
      (fun _ _ => by simp [frictional, setup]) (by norm_num [frictional, setup, cfg, exConfig]) (hardClay_ok _ _)
      (hardClay_cam _ _) (.inr rfl) (by norm_num [frictional, hardClay, Ex.mat]) rfl (by simp [frictional, hardClay])
      (by norm_num [frictional, hardClay, Ex.mat]) (by norm_num [frictional, hardClay, Ex.mat])

/-- Viscous sand with `use_mibf`. -/
def roughSand : Material := { Ex.mat .dpVisc with qCohesion := 0, useMibf := true }

lemma roughSand_ok : MatOk roughSand 2 :=
  ⟨(Ex.mat_ok .mcc).hd, (Ex.mat_ok .mcc).hK, (Ex.mat_ok .mcc).hmu, (Ex.mat_ok .mcc).hq, rfl⟩

/-- `C82_run_viscous` -/
example (musl : Bool) := frictional_run musl (m := roughSand)
  (.inr (.inl ⟨roughSand_ok, .inr rfl, by norm_num [frictional, roughSand, Ex.mat],
    by norm_num [frictional, roughSand, Ex.mat]⟩))
  (.inr (.inr (.inr (.inr (.inr (.inr ⟨roughSand_ok.hmu, roughSand_ok.hq, by norm_num [roughSand, Ex.mat],
    by norm_num [roughSand, Ex.mat], .inr ⟨rfl, by norm_num [roughSand, Ex.mat]⟩⟩)))))) rfl
  (C82_run_viscous (deg := .two) (dx := 1) (fr := -19 / 20) (m := 3) (vol := 1) rfl one_pos rfl
    (fun _ _ => by simp [frictional, setup]) (by norm_num [frictional, setup, cfg, exConfig]) someSvd_isSvd roughSand_ok
    (by norm_num [frictional, roughSand, Ex.mat]) rfl (by norm_num [frictional, roughSand, Ex.mat])
    (.inl ⟨rfl, by norm_num [frictional, roughSand, Ex.mat], by norm_num [frictional, roughSand, Ex.mat], rfl⟩))

/-- `C82_run_muI` -/
example (musl : Bool) := frictional_run musl (m := Ex.mat .dpMui)
  (.inl (.inr (.inr (.inr ⟨⟨Ex.mat_ok _, by norm_num [frictional, Ex.mat], by norm_num [frictional, Ex.mat],
    by norm_num [frictional, Ex.mat, Material.facQ], by norm_num [frictional, Ex.mat], by norm_num [frictional, Ex.mat]⟩, rfl⟩))))
  (.inr (.inr (.inr (.inr (.inl rfl))))) rfl
  (C82_run_muI (deg := .two) (dx := 1) (fr := -19 / 20) (m := 3) (vol := 1) rfl one_pos rfl
    (fun _ _ => by simp [frictional, setup]) (by norm_num [frictional, setup, cfg, exConfig]) someSvd_isSvd (Ex.mat_ok _)
    (by norm_num [frictional, Ex.mat]) (by norm_num [frictional, Ex.mat]) (by norm_num [frictional, Ex.mat, Material.facQ])
    (.inl ⟨rfl, by norm_num [frictional, Ex.mat], by norm_num [frictional, Ex.mat]⟩))

/-- `C82_noHard_false`: a sheared particle. -/
example (dt : ℝ) : plasticity abs (Ex.svd (1 / 2) (-1 / 2)) (hardClay .mcc .noHard) dt (Ex.part (1 / 2) (-1 / 2)) false = none := by
  obtain ⟨e1, e2⟩ := ex_trial .mcc (a := 1 / 2) (b := -1 / 2) (by norm_num) (by norm_num) _ (Ex.isSvd _ _)
  have e1' : trialP (hardClay .mcc .noHard) (Ex.svd (1 / 2) (-1 / 2) (Ex.part (1 / 2) (-1 / 2)).F) = 0 := e1.trans (by norm_num)
  have e2' : trialQ (hardClay .mcc .noHard) (Ex.svd (1 / 2) (-1 / 2) (Ex.part (1 / 2) (-1 / 2)).F) = 1 := e2.trans (by norm_num)
  refine C82_noHard_false (hardClay_ok _ _) (hardClay_cam _ _) (.inl rfl) (by norm_num [hardClay, Ex.mat]) rfl rfl
    (Ex.isSvd _ _) ?_
  rw [e1', e2']
  norm_num [OutsideEllipse, hardClay, Ex.mat]

/-- `Ex.cam` with `use_mibf`. -/
def cohClay (pm : PlasticModel) (hl : HardeningLaw) : Material := { Props.Ex.cam pm hl with useMibf := true }

lemma cohClay_ok (pm hl) : MatOk (cohClay pm hl) 2 :=
  ⟨(Ex.mat_ok .mcc).hd, (Ex.mat_ok .mcc).hK, (Ex.mat_ok .mcc).hmu, (Ex.mat_ok .mcc).hq, rfl⟩
lemma cohClay_cam (pm hl) : CamOk (cohClay pm hl) :=
  ⟨by norm_num [cohClay, Props.Ex.cam, Ex.mat], by norm_num [cohClay, Props.Ex.cam, Ex.mat],
    by norm_num [cohClay, Props.Ex.cam, Ex.mat]⟩

/-- `C82_camClay_implicit`: the shear stress 3/4 at pressure 1/4 is returned to the ellipse. -/
example : ∃ out, plasticity abs (Ex.svd (1 / 4) (-1 / 2)) (cohClay .mcc .expoImpl) 1 (Ex.part (1 / 4) (-1 / 2)) false =
    some out ∧ (out.q.muI = 1 / 2 ∨ out.q.muI = 0 ∧ newQ (cohClay .mcc .expoImpl) out = 0) := by
  have ok := cohClay_ok .mcc .expoImpl
  have hs := Ex.isSvd (1 / 4) (-1 / 2)
  obtain ⟨t1, t2⟩ := Props.Ex.cam_trial .mcc .expoImpl
  change trialP (cohClay .mcc .expoImpl) _ = _ at t1
  change trialQ (cohClay .mcc .expoImpl) _ = _ at t2
  obtain ⟨hP, hQ⟩ := trial_eq ok hs
  rw [t1] at hP
  rw [t2] at hQ
  have hr : mccReturn abs (cohClay .mcc .expoImpl) 2 true (cohClay .mcc .expoImpl).M 0 (1 / 4) (3 / 4) false = _ :=
    Props.Ex.cam_return .mcc true (Props.Ex.cam .mcc .expoImpl).M rfl
  have hmu : ∀ a b, mccMuI (cohClay .mcc .expoImpl) 2 none (0 + -1 * (1 / 4 - 1 / 4) / (cohClay .mcc .expoImpl).K 2) (1 / 4)
      (3 / 8) a b 1 = some (1 / 2) := by
    intro a b
    have hK : (cohClay .mcc .expoImpl).K 2 = 1 := Ex.mat_K .mcc
    rw [hK]
    norm_num [mccMuI, cohClay, Props.Ex.cam, Ex.mat, Material.expLaw, fsqrt, fdiv]
    rw [show (9 : ℝ) = 3 ^ 2 by norm_num, show (16 : ℝ) = 4 ^ 2 by norm_num, Real.sqrt_sq (by norm_num),
      Real.sqrt_sq (by norm_num)]
    norm_num
  have hst : ∃ st, plastModel abs (cohClay .mcc .expoImpl) 1 (Ex.svd (1 / 4) (-1 / 2) (Ex.part (1 / 4) (-1 / 2)).F)
      (mkTrial (Ex.svd (1 / 4) (-1 / 2) (Ex.part (1 / 4) (-1 / 2)).F).hencky)
      ⟨Ex.part (1 / 4) (-1 / 2), (Ex.svd (1 / 4) (-1 / 2) (Ex.part (1 / 4) (-1 / 2)).F).hencky, 0, false⟩ = some st := by
    simp only [plastModel, show (cohClay .mcc .expoImpl).plastic = .mcc from rfl, plastMCC,
      show (cohClay .mcc .expoImpl).useMibf = true from rfl, if_true, ← hP, ← hQ,
      show (Ex.part (1 / 4) (-1 / 2)).epsPlVol = 0 from rfl, hr, Option.bind_eq_bind, Option.bind_some, reduceCtorEq,
      if_false, hmu]
    exact ⟨_, rfl⟩
  obtain ⟨st, hst⟩ := hst
  have hp := plasticity_some.mpr ⟨st, hst, rfl⟩
  exact ⟨_, hp, C82_camClay_implicit ok (cohClay_cam _ _) rfl (by norm_num [cohClay, Props.Ex.cam]) rfl hs hp (.inl rfl)⟩

/-- `C82_viscousCamClay` -/
example : ∃ out, plasticity abs (Ex.svd (1 / 4) (-1 / 2)) (cohClay .mccVisc .expoExpl) 1 (Ex.part (1 / 4) (-1 / 2)) false =
    some out ∧ 1 / 2 ≤ out.q.muI := by
  have ok := cohClay_ok .mccVisc .expoExpl
  have hs := Ex.isSvd (1 / 4) (-1 / 2)
  have cam := cohClay_cam .mccVisc .expoExpl
  have hpc : 0 < max (cohClay .mccVisc .expoExpl).stressTol ((cohClay .mccVisc .expoExpl).expLaw 0) :=
    lt_of_lt_of_le cam.tol (le_max_left _ _)
  have hst : ∃ st, plastModel abs (cohClay .mccVisc .expoExpl) 1 (Ex.svd (1 / 4) (-1 / 2) (Ex.part (1 / 4) (-1 / 2)).F)
      (mkTrial (Ex.svd (1 / 4) (-1 / 2) (Ex.part (1 / 4) (-1 / 2)).F).hencky)
      ⟨Ex.part (1 / 4) (-1 / 2), (Ex.svd (1 / 4) (-1 / 2) (Ex.part (1 / 4) (-1 / 2)).F).hencky, 0, false⟩ = some st := by
    generalize mkTrial (Ex.svd (1 / 4) (-1 / 2) (Ex.part (1 / 4) (-1 / 2)).F).hencky = T
    have hM : 0 ≤ (cohClay .mccVisc .expoExpl).M := by norm_num [cohClay, Props.Ex.cam]
    obtain ⟨r, hr⟩ := C40_explicit_defined abs_zero hM cam.beta hpc (-(cohClay .mccVisc .expoExpl).K 2 * T.trace)
      ((cohClay .mccVisc .expoExpl).eMu * T.norm) ((cohClay .mccVisc .expoExpl).K 2) (cohClay .mccVisc .expoExpl).fMu false
    have hret : mccReturn abs (cohClay .mccVisc .expoExpl) 2 true (cohClay .mccVisc .expoExpl).M 0
        (-(cohClay .mccVisc .expoExpl).K 2 * T.trace) ((cohClay .mccVisc .expoExpl).eMu * T.norm) false =
        some (some (max (cohClay .mccVisc .expoExpl).stressTol ((cohClay .mccVisc .expoExpl).expLaw 0)), r) := by
      simp only [mccReturn, show (cohClay .mccVisc .expoExpl).hardening = .expoExpl from rfl, hr, if_true,
        Option.bind_eq_bind, Option.bind_some]
    have hspec := mccReturn_spec cam ok.hK hM hret
    simp only [plastModel, show (cohClay .mccVisc .expoExpl).plastic = .mccVisc from rfl, plastMCC,
      show (cohClay .mccVisc .expoExpl).useMibf = true from rfl, if_true,
      show (Ex.part (1 / 4) (-1 / 2)).epsPlVol = 0 from rfl, hret, Option.bind_eq_bind, Option.bind_some]
    by_cases hd : r.did = true
    · rw [if_pos hd]
      have hq : 0 ≤ r.q := by
        rcases hspec with ⟨d1, -⟩ | ⟨-, -, pc, -, d2, -⟩
        · rw [d1] at hd; simp at hd
        · exact d2.1
      have hf : (cohClay .mccVisc .expoExpl).fMu = 1 := Ex.mat_fMu .mccVisc
      have hden : (cohClay .mccVisc .expoExpl).fMu + r.q * (cohClay .mccVisc .expoExpl).viscTime / 1 ≠ 0 := by
        rw [hf, show (cohClay .mccVisc .expoExpl).viscTime = 1 from rfl]
        positivity
      obtain ⟨v, hv⟩ : ∃ v, mccViscous (cohClay .mccVisc .expoExpl) 1 ((cohClay .mccVisc .expoExpl).eMu * T.norm) r.q r.exit =
          some v := by
        simp only [mccViscous, show (cohClay .mccVisc .expoExpl).useDuvautLions = false from rfl,
          show (cohClay .mccVisc .expoExpl).viscExponent = 1 from rfl, if_true, Bool.false_eq_true, if_false, fdiv,
          if_neg hden, Option.bind_eq_bind, Option.bind_some]
        exact ⟨_, rfl⟩
      rw [hv, Option.bind_some]
      obtain ⟨mu, hmu⟩ : ∃ mu, mccMuI (cohClay .mccVisc .expoExpl) 2
          (some (max (cohClay .mccVisc .expoExpl).stressTol ((cohClay .mccVisc .expoExpl).expLaw 0))) _ r.p v.2.1 _
          ((cohClay .mccVisc .expoExpl).eMu * T.norm) v.1 = some mu := mccMuI_explicit cam rfl _ _ _ _ _ _ _
      rw [hmu]
      exact ⟨_, rfl⟩
    · rw [if_neg hd]; exact ⟨_, rfl⟩
  obtain ⟨st, hst⟩ := hst
  have hp := plasticity_some.mpr ⟨st, hst, rfl⟩
  exact ⟨_, hp, (C82_viscousCamClay ok cam rfl rfl (by norm_num [cohClay, Props.Ex.cam]) rfl (.inl rfl)
    (by norm_num [cohClay, Props.Ex.cam, Ex.mat]) (by norm_num [cohClay, Props.Ex.cam, Ex.mat]) one_pos hs hp).1⟩

end
end Verif.Props.RunEx
