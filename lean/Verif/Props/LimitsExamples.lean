import Verif.Props.Limits
import Verif.Props.ReinsertExamples

set_option linter.unusedSectionVars false
set_option linter.unusedSimpArgs false
set_option linter.unusedVariables false

/-!
# C95: concrete runs
-/

namespace Verif.Props.RunEx
open Verif Matrix
noncomputable section

/-- A particle at rest in the origin with the given deformation. -/
def lone (A : Matrix (Fin 2) (Fin 2) ℝ) : List (Particle 2 ℝ) := [{ Particle.init with F := A }]

/-- The only step of a run of one frame of a lone particle leaves its deformation to the plastic update. -/
lemma lone_step {musl : Bool} {m : Material} (hm : NeverFails m) {A : Matrix (Fin 2) (Fin 2) ℝ} {g : Fin 2 → ℝ}
    {Good : Particle 2 ℝ → Particle 2 ℝ → Prop}
    (hgood : ∀ dt (r : Particle 2 ℝ) p p', 0 < dt → r.F = A → r.epsPlVolPradhana = 0 → p.epsPlVolPradhana = 0 →
      (∀ out, plasticity abs someSvd m dt r false = some out → p'.tau = out.q.tau) →
      PlasticStep (d := 0) (made musl m) dt p p' → Good p p') :
    EveryStep (d := 0) (made musl m) (start (lone A) g) Good := by
  intro k s1 hr hf dt g' w ex hu hphys
  have hdt : 0 < dt := lt_of_lt_of_le (by norm_num [made, setup, cfg, exConfig]) (updateDt_ge hu)
  obtain rfl := physStep_ok (R := made musl m) hm hdt hphys
  have hst : StepOf (made musl m) (start (lone A) g) s1 dt g' w := ⟨k, hr, hf, hu, hphys⟩
  have hpl := (physStep_forall₂ hphys).imp fun _ _ h => plasticStep_of h
  have hlat := run_lattice (R := made musl m) (dx := 1) rfl one_pos rfl rfl (by simp [start, lone]) hst
  obtain ⟨m0, h0, h1⟩ := hlat
  have hk := only_begin_of (R := made musl m) rfl (ps := lone A) (by simp [lone])
    (by simp [lone, Particle.init]) g k s1 hr
  subst hk
  cases hr
  have hw : (begin (made musl m) (start (lone A) g)).w.ps = lone A := by
    rw [begin_w]; simp [fillMuI, made, setup, start, mkTransferParams]
  have hwp : (begin (made musl m) (start (lone A) g)).w.plates = [] := by
    rw [begin_w]; simp [fillMuI, made, setup, start, mkTransferParams]
  have hn : NoTinyWeights .two 1 w.g (lone A) := by
    intro q hq j hj
    choose k hk using fun a => h1 a _ (List.getElem_mem (hj a))
    have e1 : nodeAt w.g j = fun a => m0 a + k a * 1 := by
      ext a
      rw [nodeAt, List.getD_eq_getElem?_getD, List.getElem?_eq_getElem (hj a), Option.getD_some, hk a]
    rw [e1]
    simp only [lone, List.mem_singleton] at hq
    subst hq
    have hm : ∀ a, ∃ j : ℤ, m0 a = j := by
      intro a
      rcases (h0 a).1 with ⟨x, hx, e⟩ | ⟨r, hr, _⟩
      · obtain ⟨q, hq, rfl⟩ := List.mem_map.mp hx
        simp only [start, lone, List.mem_singleton] at hq
        subst hq
        exact ⟨0, by rw [← e]; simp [Particle.init]⟩
      · cases hr
    have hN : ∀ a, N .two (((0 : Fin 2 → ℝ) a - (m0 a + k a * 1)) / 1) = 0 ∨
        1 / 8 ≤ N .two (((0 : Fin 2 → ℝ) a - (m0 a + k a * 1)) / 1) := by
      intro a
      obtain ⟨j, hj⟩ := hm a
      have : ((0 : Fin 2 → ℝ) a - (m0 a + k a * 1)) / 1 = ((-(j + k a) : ℤ) : ℝ) := by rw [hj]; push_cast; simp
      rw [this]
      exact N2_int _
    show shape .two 1 (fun a => m0 a + k a * 1) 0 = 0 ∨ 1 / 10 ^ 25 < shape .two 1 (fun a => m0 a + k a * 1) 0
    have hsh : shape .two 1 (fun a => m0 a + k a * 1) (0 : Fin 2 → ℝ) =
        N .two (((0 : Fin 2 → ℝ) 0 - (m0 0 + k 0 * 1)) / 1) * N .two (((0 : Fin 2 → ℝ) 1 - (m0 1 + k 1 * 1)) / 1) :=
      Fin.prod_univ_two _
    rw [hsh]
    rcases hN 0 with h0 | h0
    · left; rw [h0, zero_mul]
    rcases hN 1 with h1 | h1
    · left; rw [h1, mul_zero]
    right
    have := mul_le_mul h0 h1 (by norm_num) (by linarith)
    refine lt_of_lt_of_le ?_ this
    norm_num
  have hgrid := physStep_goodGrid (R := made musl m) rfl (by norm_num [made, setup, mkTransferParams]) rfl hphys
  obtain ⟨-, fr', hqs, hbc⟩ := physStep_free (R := made musl m) rfl rfl hwp hphys
  rw [hw] at hgrid hqs hpl ⊢
  obtain ⟨qs, b1, b2⟩ := C07_free_fall (dt := dt) (grav := g') (plast := plastTotal (made musl m) dt)
    (S := (made musl m).S) (deg := .two) (dx := 1) (fr := -19 / 20) (mibf := false) (m := 3) (vol := 1)
    (threads := (made musl m).sched (begin (made musl m) (start (lone A) g)).step (lone A))
    rfl (by simp) (by norm_num) rfl rfl hgrid
    hn (by simp [made, setup]) hbc (plastTotal_keeps _ dt) (c := 0)
    (by simp [lone, Particle.init]) (by simp [lone, Particle.init]) (by simp [lone, Particle.init])
  have e : w.ps = qs := Option.some.inj (hqs.symm.trans b1)
  rw [e] at hpl ⊢
  simp only [lone] at b2 hpl ⊢
  cases b2 with
  | cons h1 h2 =>
    cases h2
    cases hpl with
    | cons h3 h4 =>
    cases h4
    refine .cons ?_ .nil
    obtain ⟨-, -, -, r, c1, c2, c3, c4, c5⟩ := h1
    refine hgood dt r _ _ hdt c1 (by rw [c5]; rfl) rfl (fun out ho => ?_) h3
    rw [c4]
    have hu : plasticUpdate (made musl m) dt r = some (out.q, out.exit) := by
      unfold plasticUpdate
      rw [show plasticity (made musl m).cabs (made musl m).svd (made musl m).m dt r false = some out from ho]
      rfl
    rw [plastTotal_eq hu]

/-- Compressed to a quarter of its volume and sheared. -/
def crushed : Matrix (Fin 2) (Fin 2) ℝ := diagonal ![2, 1 / 8]

lemma crushed_pressure {m : Material} (ok : MatOk m 2) {σ : Svd 2} (hs : IsSvd crushed σ) :
    0 < trialP m σ := by
  have hdet : crushed.det = 1 / 4 := by
    rw [crushed, det_diagonal, Fin.prod_univ_two]; norm_num
  have hb : ∀ a, 1e-4 ≤ σ.sig a := fun a =>
    le_trans (by norm_num) (InputEx.stretch_ge (c := 3) (by norm_num) (by norm_num) hdet (by
      rw [crushed, diagonal_transpose, diagonal_mul_diagonal, trace_diagonal, Fin.sum_univ_two]; norm_num) hs a)
  have h1 := abs_det_svd hs
  rw [hdet, abs_of_pos (by norm_num), Fin.prod_univ_two] at h1
  rw [(trial_eq ok hs).1]
  have hp : ∀ a, 0 < σ.sig a := fun a => lt_of_lt_of_le (by norm_num) (hb a)
  have : (mkTrial σ.hencky).trace = Real.log (1 / 4) := by
    rw [h1, Real.log_mul (hp 0).ne' (hp 1).ne']
    simp only [mkTrial, Svd.hencky, Fin.sum_univ_two]
    rw [abs_of_pos (hp 0), abs_of_pos (hp 1), max_eq_left (hb 0), max_eq_left (hb 1)]
  rw [this]
  have : Real.log (1 / 4) < 0 := Real.log_neg (by norm_num) (by norm_num)
  have := ok.hK
  nlinarith

/-- `C95_druckerPrager` for a crushed particle. -/
example (musl : Bool) (g : Fin 2 → ℝ) :
    runProgram (d := 0) (made musl (softDP (Ex.mat .dp))) true false 10 (start (lone crushed) g) =
      runProgram (d := 0) (made musl (inviscidDP (Ex.mat .dp))) true false 10 (start (lone crushed) g) := by
  have ok := Ex.mat_ok .dp
  refine C95_druckerPrager (d := 0) (R := setup musl 1 .vm) (m := Ex.mat .dp) ok (by norm_num [Ex.mat]) (by norm_num [Ex.mat]) rfl
    (by norm_num [setup, cfg, exConfig]) someSvd_isSvd ?_
  refine lone_step (m := inviscidDP (Ex.mat .dp)) (.inr (.inr (.inr (.inr (.inr (.inr
    ⟨ok.hmu, ok.hq, rfl, le_refl (0 : ℝ), .inr ⟨rfl, by norm_num [inviscidDP, Ex.mat]⟩⟩)))))) ?_
  intro dt r p p' hdt hF he hp0 ht hpl htip
  exfalso
  have hs := someSvd_isSvd r.F
  have hP := crushed_pressure ok (by rw [← hF]; exact hs)
  have hS : pressureShift (Ex.mat .dp) 2 p = 0 := by simp [pressureShift, Ex.mat]
  have hS' : pressureShift (inviscidDP (Ex.mat .dp)) 2 r = 0 := by simp [pressureShift, inviscidDP, Ex.mat]
  obtain ⟨out, ho, -, hkeep, -⟩ := C38_viscousDruckerPrager (cabs := abs) (svd := someSvd) (m := inviscidDP (Ex.mat .dp))
    ⟨ok.hd, ok.hK, ok.hmu, ok.hq, ok.hel⟩ rfl rfl (by norm_num [inviscidDP, Ex.mat]) (by norm_num [inviscidDP, Ex.mat])
    (le_refl (0 : ℝ)) hdt r false hs rfl rfl rfl rfl
  have e := hkeep (by
    rw [hS']
    have : trialP (inviscidDP (Ex.mat .dp)) (someSvd r.F) = trialP (Ex.mat .dp) (someSvd r.F) := rfl
    rw [this]
    norm_num [inviscidDP, Ex.mat] at hP ⊢
    linarith)
  rw [hS, ht out ho] at htip
  have e' : savedP out.q.tau = trialP (Ex.mat .dp) (someSvd r.F) := e
  rw [e'] at htip
  norm_num [Ex.mat] at htip hP
  linarith

/-- `C95_plainDruckerPrager` for the same particle. -/
example (g : Fin 2 → ℝ) :
    runProgram (d := 0) (made true (plainDP (Ex.mat .dp))) true false 10 (start (lone crushed) g) =
      runProgram (d := 0) (made true (softDP (Ex.mat .dp))) true false 10 (start (lone crushed) g) := by
  have ok := Ex.mat_ok .dp
  refine C95_plainDruckerPrager (d := 0) (R := setup true 1 .vm) (m := Ex.mat .dp) ok (by norm_num [Ex.mat])
    (by norm_num [Ex.mat]) rfl rfl (by norm_num [setup, cfg, exConfig]) someSvd_isSvd ?_
  refine lone_step (m := softDP (Ex.mat .dp)) (.inr (.inr (.inr (.inl rfl)))) ?_
  rintro dt r p p' hdt hF he hp0 ht hpl ⟨h1, h2⟩
  have hs := someSvd_isSvd r.F
  have hP := crushed_pressure ok (by rw [← hF]; exact hs)
  have hS' : pressureShift (softDP (Ex.mat .dp)) 2 r = 0 := by simp [pressureShift, softDP, Ex.mat]
  obtain ⟨out, ho, ⟨c, -, -, -, hcase⟩, -⟩ := C36_softening (cabs := abs) (svd := someSvd) (m := softDP (Ex.mat .dp))
    ⟨ok.hd, ok.hK, ok.hmu, ok.hq, ok.hel⟩ rfl (by norm_num [softDP, Ex.mat]) (by norm_num [softDP, Ex.mat])
    (le_refl (0 : ℝ)) dt r false hs
  have hc : softCohesion (softDP (Ex.mat .dp)) c = 1 / 8 := by simp [softCohesion, softDP, Ex.mat]
  have hM : (softDP (Ex.mat .dp)).M = 1 := rfl
  have hT : trialP (softDP (Ex.mat .dp)) (someSvd r.F) = trialP (Ex.mat .dp) (someSvd r.F) := rfl
  simp only [hc, hS', hM, hT, add_zero] at hcase
  rw [ht out ho] at h2
  rcases hcase with ⟨-, e, -⟩ | ⟨-, -, e, -⟩
  · have e' : savedP out.q.tau = trialP (Ex.mat .dp) (someSvd r.F) := e
    rw [e'] at h2
    norm_num [Ex.mat] at h2 hP
    linarith
  · linarith

/-- `C95_vonMises` for the same particle. -/
example (musl : Bool) (g : Fin 2 → ℝ) :
    runProgram (d := 0) (made musl (inviscidVM (Ex.mat .vm))) true false 10 (start (lone crushed) g) =
      runProgram (d := 0) (made musl (plainVM (Ex.mat .vm))) true false 10 (start (lone crushed) g) := by
  have ok := Ex.mat_ok .vm
  refine C95_vonMises (d := 0) (R := setup musl 1 .vm) (m := Ex.mat .vm) ok (by norm_num [Ex.mat])
    (by norm_num [setup, cfg, exConfig]) someSvd_isSvd ?_
  refine lone_step (m := plainVM (Ex.mat .vm)) (.inr (.inl rfl)) ?_
  intro dt r p p' hdt hF he hp0 ht hpl
  have hs := someSvd_isSvd r.F
  have hP := crushed_pressure ok (by rw [← hF]; exact hs)
  obtain ⟨out, ho, -, e, -⟩ := C34_vonMises (cabs := abs) (svd := someSvd) (m := plainVM (Ex.mat .vm))
    ⟨ok.hd, ok.hK, ok.hmu, ok.hq, ok.hel⟩ rfl (by norm_num [plainVM, Ex.mat]) dt r false hs
  have e' : savedP out.q.tau = trialP (Ex.mat .vm) (someSvd r.F) := e
  rw [ht out ho, e']
  refine le_trans ?_ hP.le
  norm_num [Ex.mat]

/-- Cam-Clay without hardening. -/
def softClay (M : ℝ) (dl : Bool) : Material :=
  { Ex.mat .mcc with M := M, hardening := .noHard, useDuvautLions := dl }

/-- `C95_camClay` for the Duvaut-Lions law. -/
example (musl : Bool) (g : Fin 2 → ℝ) :
    runProgram (d := 0) (made musl (inviscidMCC (softClay 1 true))) true false 10 (start (lone crushed) g) =
      runProgram (d := 0) (made musl (plainMCC (softClay 1 true))) true false 10 (start (lone crushed) g) := by
  have ok := Ex.mat_ok .mcc
  exact C95_camClay (d := 0) (R := setup musl 1 .vm) (m := softClay 1 true) ⟨ok.hd, ok.hK, ok.hmu, ok.hq, ok.hel⟩
    (by norm_num [setup, cfg, exConfig]) (.inl rfl)

/-- `C95_camClay` for the Perzyna law and a clay without friction, which loses all of its shear stress. -/
example (musl : Bool) (g : Fin 2 → ℝ) :
    runProgram (d := 0) (made musl (inviscidMCC (softClay 0 false))) true false 10 (start (lone crushed) g) =
      runProgram (d := 0) (made musl (plainMCC (softClay 0 false))) true false 10 (start (lone crushed) g) := by
  have ok := Ex.mat_ok .mcc
  have ok' : MatOk (softClay 0 false) 2 := ⟨ok.hd, ok.hK, ok.hmu, ok.hq, ok.hel⟩
  have ok'' : MatOk (plainMCC (softClay 0 false)) 2 := ⟨ok.hd, ok.hK, ok.hmu, ok.hq, ok.hel⟩
  refine C95_camClay (d := 0) (R := setup musl 1 .vm) (m := softClay 0 false) ok'
    (by norm_num [setup, cfg, exConfig]) (.inr ?_)
  refine lone_step (m := plainMCC (softClay 0 false)) (.inr (.inr (.inr (.inr (.inr (.inl ⟨rfl, rfl⟩)))))) ?_
  rintro dt r p p' hdt hF he hp0 ht ⟨q, out, x, v, hq, ho, -, rfl⟩
  obtain ⟨_, _, _, _, _, _, rfl⟩ := hq
  have hs := someSvd_isSvd (d := 2)
  have key := C40_camClay ok'' ⟨by norm_num [plainMCC, softClay, Ex.mat], by norm_num [plainMCC, softClay, Ex.mat],
    by norm_num [plainMCC, softClay, Ex.mat]⟩ rfl (le_refl (0 : ℝ)) dt _ false (hs _) ho
  rcases key with ⟨-, h, -⟩ | ⟨qy, h1, h2, h3, h4, h5, h6, -⟩
  · have e := congrArg Particle.epsPlDev h
    exact e.ge
  · obtain ⟨-, pc, -, hon, -⟩ := h1
    have hqy : qy = 0 := by
      have e : (plainMCC (softClay 0 false)).M = 0 := rfl
      have := hon.2.2.2; simpa [e] using this
    show p.epsPlDev ≤ out.q.epsPlDev
    rw [h6, hqy, sub_zero]
    refine le_add_of_nonneg_right (div_nonneg ?_ ok''.eMu_pos.le)
    rw [(trial_eq ok'' (hs _)).2]
    exact mul_nonneg ok''.eMu_pos.le (mkTrial_norm_nonneg _)

/-- **C95** At the tip the two Drucker-Prager models differ: a particle sheared at constant volume. -/
theorem C95_tip_false (musl : Bool) :
    runProgram (d := 0) (made musl (softDP sand)) true false 10 (start sheared 0) ≠
      runProgram (d := 0) (made musl (inviscidDP sand)) true false 10 (start sheared 0) := by
  intro h
  obtain ⟨t, w, hev, hw⟩ := C71_tip_false musl
  have e : made musl (inviscidDP sand) = made musl sand := rfl
  rw [e] at h
  rw [← h] at hev
  have hso : MatOk (softDP sand) 2 := ⟨sand_ok.hd, sand_ok.hK, sand_ok.hmu, sand_ok.hq, rfl⟩
  rcases C71_softening (d := 0) (R := made musl (softDP sand)) hso rfl (by norm_num [made, softDP, sand, Ex.mat])
    (by norm_num [made, softDP, sand, Ex.mat]) (le_refl (0 : ℝ)) someSvd_isSvd
    (by norm_num [made, setup, cfg, exConfig]) (by simp [start, sheared, Particle.init]) hev (by simp [start]) with
    ⟨h, -⟩ | ⟨s1, dt, g, hst, hall⟩
  · cases h
  have hne : w.ps ≠ [] := by
    intro h0
    rw [h0] at hall
    have h1 : s1.w.ps.length = 1 := by
      obtain ⟨k, hr, -⟩ := hst
      have hk := only_begin_of (R := made musl (softDP sand)) rfl (ps := sheared) (by simp [sheared])
        (by simp [sheared, Particle.init]) 0 k s1 hr
      subst hk
      cases hr
      rw [begin_w]
      simp [fillMuI, made, setup, start, mkTransferParams, sheared]
    rw [hall.length_eq] at h1
    cases h1
  obtain ⟨p, hp⟩ := List.exists_mem_of_ne_nil _ hne
  obtain ⟨h1, h2⟩ := hw p hp
  obtain ⟨p0, -, -, eps, -, -, h3, -⟩ := forall₂_right hall p hp
  have hc : softCohesion (softDP sand) eps = 0 := by simp [softCohesion, softDP, sand]
  have h3' : savedQ sand.qPrefac p.tau ≤ sand.M * savedP p.tau + softCohesion (softDP sand) eps := h3
  rw [hc] at h3'
  have : sand.qCohesion = 0 := rfl
  rw [this] at h2
  linarith

end
end Verif.Props.RunEx
