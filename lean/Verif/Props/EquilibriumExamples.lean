import Verif.Props.Equilibrium
import Verif.Props.TotalEnergy

set_option linter.unusedSectionVars false
set_option linter.unusedSimpArgs false
set_option linter.unusedVariables false

/-!
# Runs meeting the hypotheses of C117
-/

namespace Verif.Props.RunEx
open Verif Matrix
noncomputable section

/-- A particle at the origin, compressed vertically by `exp (-1/8)`; its stress is the Hencky stress. -/
def pressed : Particle 2 ℝ :=
  { (Particle.init : Particle 2 ℝ) with
    F := diagonal ![Real.exp 0, Real.exp (-1 / 8)], tau := diagonal ![0, -1 / 4] }

/-- A horizontal plate whose surface is at the given height. -/
def table (bc : BC) (fr h : ℝ) : Plate 2 := ⟨h, .bottom, bc, fr, -10, 10, 0, 0, 0, 0⟩

lemma pressed_expF : (⟨1, 1, 1⟩ : Svd 2).expF ![0, -1 / 8] = pressed.F := by
  show (1 : Matrix (Fin 2) (Fin 2) ℝ) * diagonal _ * 1ᵀ = _
  rw [Matrix.transpose_one, Matrix.mul_one, Matrix.one_mul]
  show _ = diagonal ![Real.exp 0, Real.exp (-1 / 8)]
  congr 1
  ext i; fin_cases i <;> rfl

lemma pressed_tau (pm : PlasticModel) : henckyTau (Ex.mat pm).lam (Ex.mat pm).mu 1 ![0, -1 / 8] = pressed.tau := by
  rw [henckyTau, Ex.mat_mu]
  show _ = diagonal ![(0 : ℝ), -1 / 4]
  ext i j
  fin_cases i <;> fin_cases j <;> simp [Ex.mat_lam, Fin.sum_univ_two] <;> norm_num

lemma pressed_sig {s : Svd 2} (hs : IsSvd pressed.F s) (i : Fin 2) : 1e-4 ≤ s.sig i := by
  have h0 := Ex.isSvd 0 (-1 / 8)
  have e := (svd_fun_left h0.orthU h0.orthV hs.orthU hs.orthV h0.nonneg hs.nonneg (h0.eq.symm.trans hs.eq)
    fun x => if x < 1e-4 then 1 else 0).2
  have hb := fun i => Ex.big (a := 0) (b := -1 / 8) (by norm_num) (by norm_num) (Ex.part 0 (-1 / 8)).F i
  rw [Finset.sum_eq_zero fun i _ => if_neg (not_lt.mpr (hb i))] at e
  have := (Finset.sum_eq_zero_iff_of_nonneg fun i _ => by split_ifs <;> norm_num).mp e.symm i (Finset.mem_univ i)
  by_contra hlt
  rw [if_pos (not_le.mp hlt)] at this
  exact one_ne_zero this

lemma pressed_pq (pm : PlasticModel) :
    savedP pressed.tau = 1 / 8 ∧ savedQ (Ex.mat pm).qPrefac pressed.tau = 1 / 8 := by
  have h := ex_trial pm (a := 0) (b := -1 / 8) (by norm_num) (by norm_num) _ (Ex.isSvd 0 (-1 / 8))
  have e : elasticTau (Ex.mat pm) (Ex.svd 0 (-1 / 8) (Ex.part 0 (-1 / 8)).F) = pressed.tau := by
    rw [elasticTau_eq (Ex.isSvd 0 (-1 / 8)), Ex.hencky (by norm_num) (by norm_num)]
    exact pressed_tau pm
  rw [trialP, trialQ, e] at h
  rw [h.1, h.2]
  norm_num [abs_of_nonneg]

/-- The compressed particle is below yield in the elastic, von Mises and Drucker-Prager examples. -/
lemma pressed_dormant {pm : PlasticModel} (hpm : pm = .noPlasticity ∨ pm = .vm ∨ pm = .dp) :
    Dormant (Ex.mat pm) pressed := by
  refine ⟨rfl, rfl, ?_, fun s hs i => pressed_sig hs i, ?_⟩
  · have := henckyStress_expF (s := (⟨1, 1, 1⟩ : Svd 2)) (by simp) (by simp) (Ex.mat pm).lam (Ex.mat pm).mu ![0, -1 / 8]
    rw [pressed_expF] at this
    show IsHenckyStress _ _ _ _
    rw [← pressed_tau pm]
    exact this
  · obtain ⟨h1, h2⟩ := pressed_pq pm
    unfold BelowYield
    rcases hpm with rfl | rfl | rfl
    · trivial
    · show savedQ _ _ ≤ _
      rw [h2]; norm_num [Ex.mat]
    · show _ ∧ _
      rw [h1, h2]; norm_num [Ex.mat]

lemma ex_sensible {pm : PlasticModel} (hpm : pm = .noPlasticity ∨ pm = .vm ∨ pm = .dp) : Sensible (Ex.mat pm) 2 := by
  refine ⟨Ex.mat_ok _, fun _ => by norm_num [Ex.mat], fun _ => ⟨by norm_num [Ex.mat], by norm_num [Ex.mat]⟩, fun h => ?_⟩
  rcases hpm with rfl | rfl | rfl <;> simp [Ex.mat] at h

/-- Weights of a particle at the origin. -/
lemma near_origin {k : Fin 2 → ℤ} {p : Particle 2 ℝ} (hx : p.x = 0)
    (h : 0 < massAt .two (1 : ℝ) 3 [p] (fun a => (k a : ℝ))) :
    (k 0 = -1 ∨ k 0 = 0 ∨ k 0 = 1) ∧ (k 1 = -1 ∨ k 1 = 0 ∨ k 1 = 1) := by
  have hN : ∀ j : ℤ, ¬ (j = -1 ∨ j = 0 ∨ j = 1) → N .two ((0 - (j : ℝ)) / 1) = 0 := by
    intro j hj
    push Not at hj
    show N2 _ = 0
    have : 2 ≤ |(0 - (j : ℝ)) / 1| := by
      rw [zero_sub, div_one, abs_neg]
      have : 2 ≤ |j| := by
        rw [le_abs]; omega
      exact_mod_cast this
    simp only [N2]
    rw [if_neg (by linarith), if_neg (by linarith)]
  by_contra hc
  have h0 : shape .two (1 : ℝ) (fun a => (k a : ℝ)) p.x = 0 := by
    rw [shape, Fin.prod_univ_two, hx]
    rcases not_and_or.mp hc with hc | hc
    · rw [show ((0 : Fin 2 → ℝ) 0 - (k 0 : ℝ)) / 1 = (0 - (k 0 : ℝ)) / 1 from rfl, hN _ hc, zero_mul]
    · rw [show ((0 : Fin 2 → ℝ) 1 - (k 1 : ℝ)) / 1 = (0 - (k 1 : ℝ)) / 1 from rfl, hN _ hc, mul_zero]
  rw [massAt, List.filter_cons_of_neg (by rw [h0]; norm_num)] at h
  simp at h

/-- The spline at the neighbouring nodes. -/
lemma spline_at {j : ℤ} (h : j = -1 ∨ j = 0 ∨ j = 1) :
    ∃ n : ℝ, 1 / 8 ≤ n ∧ N .two ((0 - (j : ℝ)) / 1) = n ∧ dNdu .two ((0 - (j : ℝ)) / 1) = 4 * j * n := by
  refine ⟨_, ?_, rfl, ?_⟩
  · show 1 / 8 ≤ N2 _
    rcases h with rfl | rfl | rfl <;> norm_num [N2]
  · show dN2 _ = 4 * _ * N2 _
    rcases h with rfl | rfl | rfl <;> norm_num [N2, dN2, sgn]

/-- The pull on a node near the particle. -/
lemma origin_pull {k : Fin 2 → ℤ} {p : Particle 2 ℝ} (hx : p.x = 0) {a b : ℝ} (ht : p.tau = diagonal ![a, b]) (g : Fin 2 → ℝ)
    (h : 0 < massAt .two (1 : ℝ) 3 [p] (fun a => (k a : ℝ))) :
    pullAt .two 1 3 1 g [p] (fun a => (k a : ℝ)) = ![g 0 - 4 * a * k 0 / 3, g 1 - 4 * b * k 1 / 3] := by
  obtain ⟨h0, h1⟩ := near_origin hx h
  obtain ⟨n0, h2, h3, h4⟩ := spline_at h0
  obtain ⟨n1, h5, h6, h7⟩ := spline_at h1
  have hs : shape .two (1 : ℝ) (fun a => (k a : ℝ)) p.x = n0 * n1 := by
    rw [shape, Fin.prod_univ_two, hx]
    exact congrArg₂ _ h3 h6
  have hg : shapeGrad .two (1 : ℝ) (fun a => (k a : ℝ)) p.x = ![4 * k 0 * n0 * n1, n0 * (4 * k 1 * n1)] := by
    rw [hx]
    ext i
    rw [shapeGrad, Fin.prod_univ_two]
    fin_cases i
    · simp only [Fin.zero_eta, if_true, one_ne_zero, if_false, div_one (dNdu _ _)]
      exact congrArg₂ _ h4 h6
    · simp only [Fin.mk_one, if_true, zero_ne_one, if_false, div_one (dNdu _ _)]
      exact congrArg₂ _ h3 h7
  have hpos : 1 / 64 ≤ n0 * n1 := by nlinarith
  rw [pullAt, massAt, List.filter_cons_of_pos (by rw [hs]; exact decide_eq_true (lt_of_lt_of_le (by norm_num) hpos)), List.filter_nil,
    List.map_singleton, List.sum_singleton, List.map_singleton, List.sum_singleton, ht, hs, hg]
  have h8 : n0 ≠ 0 := by intro h; norm_num [h] at h2
  have h9 : n1 ≠ 0 := by intro h; norm_num [h] at h5
  ext i
  fin_cases i
  · simp [Matrix.mulVec_diagonal]; field_simp
  · simp [Matrix.mulVec_diagonal]; field_simp

lemma one_least {p : Particle 2 ℝ} (hx : p.x = 0) (a : Fin 2) :
    IsLeast (coords (none : Option (Fin 2 → ℝ)) ([p].map fun p => p.x) a) ((0 : Fin 2 → ℝ) a) := by
  refine ⟨.inl ⟨p.x, by simp, by rw [hx]⟩, ?_⟩
  rintro y (⟨x, h, rfl⟩ | ⟨r, h, -⟩)
  · simp only [List.map_singleton, List.mem_singleton] at h
    rw [h, hx]
  · cases h

lemma table_rests {bc : BC} {fr h : ℝ} (hf : 0 ≤ fr) : ∀ q ∈ [table bc fr h], PlateRests q := by
  intro q hq
  obtain rfl := List.mem_singleton.mp hq
  exact ⟨rfl, rfl, hf⟩

/-- The node is at or below the ground. -/
lemma table_behind {bc : BC} {fr h : ℝ} {Y : Fin 2 → ℝ} (h0 : -10 < Y 0) (h1 : Y 0 < 10) (h2 : Y 1 ≤ h) :
    Behind (d := 0) (table bc fr h) (1 : Fin 2) Y := by
  refine ⟨rfl, ⟨h0, h1⟩, ?_⟩
  show 1 * Y 1 ≤ 1 * h
  linarith

/-- A column on the ground: gravity, the stress of the compressed particle and the ground balance. -/
lemma column_equilibrium (musl : Bool) (n : ℕ) {pm : PlasticModel} (hpm : pm = .noPlasticity ∨ pm = .vm ∨ pm = .dp) (bc : BC) (fr : ℝ) :
    InEquilibrium (d := 0) (setup musl n pm) .two 1 3 1 0 ![0, -1 / 3] [pressed] [table bc fr 0] := by
  refine ⟨fun p hp => ?_, ?_⟩
  · obtain rfl := List.mem_singleton.mp hp
    exact pressed_dormant hpm
  rintro k X rfl hm
  have hX : (fun a => (0 : Fin 2 → ℝ) a + (k a : ℝ) * 1) = fun a => (k a : ℝ) := by
    ext a; simp
  replace hm : 0 < massAt .two (1 : ℝ) 3 [pressed] (fun a => (k a : ℝ)) := by rw [← hX]; exact hm
  obtain ⟨h0, h1⟩ := near_origin (p := pressed) rfl hm
  have e : pullAt .two 1 3 1 ![0, -1 / 3] [pressed] (fun a => (k a : ℝ)) = ![0, ((k 1 : ℝ) - 1) / 3] := by
    rw [origin_pull (p := pressed) rfl rfl _ hm]
    ext i
    fin_cases i
    · simp
    · simp; ring
  show pullAt .two 1 3 1 ![0, -1 / 3] [pressed] (fun a => (0 : Fin 2 → ℝ) a + (k a : ℝ) * 1) = 0 ∨
    Carried (d := 0) _ _ (fun a => (0 : Fin 2 → ℝ) a + (k a : ℝ) * 1)
      (pullAt .two 1 3 1 ![0, -1 / 3] [pressed] (fun a => (0 : Fin 2 → ℝ) a + (k a : ℝ) * 1))
  rw [hX, e]
  have h2 : k 1 = 1 ∨ (k 1 : ℝ) ≤ 0 := by
    rcases h1 with h | h | h
    · right; rw [h]; norm_num
    · right; rw [h]; norm_num
    · exact .inl h
  rcases h2 with h2 | h2
  · left
    rw [h2]
    ext i; fin_cases i <;> simp
  · right
    intro dt hdt _
    refine .inl ⟨_, List.mem_singleton.mpr rfl, (1 : Fin 2), table_behind ?_ ?_ ?_, ?_, .inr ?_⟩
    · show -10 < (k 0 : ℝ) + dt * dt * 0
      rcases h0 with h | h | h <;> rw [h] <;> norm_num
    · show (k 0 : ℝ) + dt * dt * 0 < 10
      rcases h0 with h | h | h <;> rw [h] <;> norm_num
    · show (k 1 : ℝ) + dt * dt * (((k 1 : ℝ) - 1) / 3) ≤ 0
      have := mul_nonneg (mul_pos hdt hdt).le (show 0 ≤ (1 - (k 1 : ℝ)) / 3 by linarith)
      linarith
    · show 1 * (((k 1 : ℝ) - 1) / 3) ≤ 0
      linarith
    · exact (erase2 1 _).trans (by simp)

/-- `C117` for one particle on the ground: three frames are written, and all show the particle as it was. -/
lemma stand_run (musl : Bool) {pm : PlasticModel} (hpm : pm = .noPlasticity ∨ pm = .vm ∨ pm = .dp) {bc : BC} {fr h : ℝ} (hf : 0 ≤ fr)
    {p : Particle 2 ℝ} (hx : p.x = 0) {g : Fin 2 → ℝ}
    (heq : InEquilibrium (d := 0) (setup musl 3 pm) .two 1 3 1 0 g [p] [table bc fr h]) :
    ∃ r, runProgram (setup musl 3 pm) true false 30 (start [p] g [table bc fr h]) = .finished r ∧
    (∀ n ≤ 3, ∃ t w, .particles n t w ∈ r.out) ∧
    ∀ n t w, .particles n t w ∈ r.out → List.Forall₂ Unchanged [p] w.ps := by
  have hrob : Robust (setup musl 3 pm) := by
    rcases hpm with rfl | rfl | rfl
    · exact .inl (.inl ⟨rfl, rfl⟩)
    · exact .inl (.inr (.inl ⟨Ex.mat_ok _, rfl⟩))
    · exact .inl (.inr (.inr (.inl ⟨Ex.mat_ok _, by norm_num [setup, Ex.mat], .inl rfl⟩)))
  have hnf : NeverFails (setup musl 3 pm).m := by
    rcases hpm with rfl | rfl | rfl
    · exact .inl rfl
    · exact .inr (.inl rfl)
    · exact .inr (.inr (.inl rfl))
  exact C117_completes (d := 0) (R := setup musl 3 pm) (s := start [p] g [table bc fr h]) (deg := .two) (dx := 1)
    (fr := -19 / 20) (m := 3) (vol := 1) (o := 0) rfl (by decide) one_pos (by norm_num) rfl rfl rfl carry2 brake2 still2
    (ex_sensible hpm) someSvd_isSvd rfl (by norm_num [setup, cfg, exConfig]) rfl (by simp [start]) (fun _ _ => by simp [setup])
    (table_rests hf) (one_least hx) heq hrob hnf rfl (by norm_num)
    (by norm_num [setup, cfg, exConfig]) (by norm_num [setup, cfg, exConfig]) rfl (by norm_num [setup, cfg, exConfig]) rfl

/-- `C117`: the column stands still on any kind of ground, for three frames. -/
lemma column_run (musl : Bool) {pm : PlasticModel} (hpm : pm = .noPlasticity ∨ pm = .vm ∨ pm = .dp) (bc : BC) {fr : ℝ} (hf : 0 ≤ fr) :
    ∃ r, runProgram (setup musl 3 pm) true false 30 (start [pressed] ![0, -1 / 3] [table bc fr 0]) = .finished r ∧
    (∀ n ≤ 3, ∃ t w, .particles n t w ∈ r.out) ∧
    ∀ n t w, .particles n t w ∈ r.out → List.Forall₂ Unchanged [pressed] w.ps :=
  stand_run musl hpm hf rfl (column_equilibrium musl 3 hpm bc fr)

/-- The file of frame 3 of the column on slippery ground shows the particle where it was, with its stress. -/
example : ∃ t w, .particles 3 t w ∈ filesOf (runProgram (setup true 3 .dp) true false 30
      (start [pressed] ![0, -1 / 3] [table .slipFree (1 / 2) 0])) ∧ ∀ p ∈ w.ps, p.x = 0 ∧ p.v = 0 ∧ p.tau = diagonal ![0, -1 / 4] := by
  obtain ⟨r, h1, h2, h3⟩ := column_run true (pm := .dp) (.inr (.inr rfl)) .slipFree (fr := 1 / 2) (by norm_num)
  obtain ⟨t, w, hw⟩ := h2 3 le_rfl
  refine ⟨t, w, by rw [h1]; exact hw, fun p hp => ?_⟩
  obtain ⟨q, hq, hu⟩ := forall₂_right (h3 3 t w hw) p hp
  obtain rfl := List.mem_singleton.mp hq
  exact ⟨hu.1, hu.2.1, hu.2.2.2.2.1⟩

/-- A block on rough ground, with gravity inside the friction cone. -/
lemma slope_equilibrium (musl : Bool) (n : ℕ) {pm : PlasticModel} (hpm : pm = .noPlasticity ∨ pm = .vm ∨ pm = .dp) (bc : BC) :
    InEquilibrium (d := 0) (setup musl n pm) .two 1 3 1 0 ![1 / 4, -1] [Particle.init] [table bc (1 / 2) 1] := by
  have hz : savedP (0 : Matrix (Fin 2) (Fin 2) ℝ) = 0 ∧ ∀ c, savedQ c (0 : Matrix (Fin 2) (Fin 2) ℝ) = 0 := by
    have : savedP (0 : Matrix (Fin 2) (Fin 2) ℝ) = 0 := by simp [savedP]
    exact ⟨this, fun c => by rw [savedQ, this]; simp [selfDoubleDot]⟩
  refine ⟨fun p hp => ?_, ?_⟩
  · obtain rfl := List.mem_singleton.mp hp
    refine ⟨rfl, rfl, one_free _ _, fun s hs i => ?_, ?_⟩
    · have h7 : s.sig i ^ 2 = 1 := sig_scalar (by simp [Particle.init]) hs i
      have h8 : s.sig i = 1 := by nlinarith [hs.nonneg i]
      rw [h8]; norm_num
    · unfold BelowYield
      rcases hpm with rfl | rfl | rfl
      · trivial
      · show savedQ _ (0 : Matrix (Fin 2) (Fin 2) ℝ) ≤ _
        rw [hz.2]; norm_num [setup, Ex.mat]
      · show 1e-10 ≤ _ * savedP (0 : Matrix (Fin 2) (Fin 2) ℝ) + _ ∧ savedQ _ (0 : Matrix (Fin 2) (Fin 2) ℝ) ≤
          _ * savedP (0 : Matrix (Fin 2) (Fin 2) ℝ) + _
        rw [hz.1, hz.2]; norm_num [setup, Ex.mat]
  rintro k X rfl hm
  have hX : (fun a => (0 : Fin 2 → ℝ) a + (k a : ℝ) * 1) = fun a => (k a : ℝ) := by
    ext a; simp
  replace hm : 0 < massAt .two (1 : ℝ) 3 [(Particle.init : Particle 2 ℝ)] (fun a => (k a : ℝ)) := by rw [← hX]; exact hm
  obtain ⟨h0, h1⟩ := near_origin (p := Particle.init) rfl hm
  have e : pullAt .two 1 3 1 ![1 / 4, -1] [(Particle.init : Particle 2 ℝ)] (fun a => (k a : ℝ)) = ![1 / 4, -1] := by
    rw [origin_pull (p := Particle.init) (a := 0) (b := 0) rfl (by ext i j; fin_cases i <;> fin_cases j <;> rfl) _ hm]
    ext i
    fin_cases i <;> simp
  show _ ∨ Carried (d := 0) _ _ (fun a => (0 : Fin 2 → ℝ) a + (k a : ℝ) * 1)
      (pullAt .two 1 3 1 ![1 / 4, -1] [(Particle.init : Particle 2 ℝ)] (fun a => (0 : Fin 2 → ℝ) a + (k a : ℝ) * 1))
  rw [hX, e]
  right
  intro dt hdt hD
  have hD1 : dt ≤ 1 := by
    refine hD.trans ?_
    show max (exConfig (1 / 10) n).dtMax _ ≤ 1
    rw [ex_dtMax]; norm_num [setup, cfg, exConfig]
  have hdd : dt * dt ≤ 1 := by nlinarith
  have hb : Behind (d := 0) (table bc (1 / 2) 1) (1 : Fin 2) ((fun a => (k a : ℝ)) + (dt * dt) • ![1 / 4, -1]) := by
    have h3 : 0 < dt * dt := mul_pos hdt hdt
    refine table_behind ?_ ?_ ?_
    · show -10 < (k 0 : ℝ) + dt * dt * (1 / 4)
      rcases h0 with h | h | h <;> rw [h] <;> push_cast <;> linarith
    · show (k 0 : ℝ) + dt * dt * (1 / 4) < 10
      rcases h0 with h | h | h <;> rw [h] <;> push_cast <;> linarith
    · show (k 1 : ℝ) + dt * dt * (-1) ≤ 1
      rcases h1 with h | h | h <;> rw [h] <;> push_cast <;> linarith
  refine .inr ⟨⟨_, List.mem_singleton.mpr rfl, _, hb⟩, fun q hq b hqb => ?_⟩
  obtain rfl := List.mem_singleton.mp hq
  have hb1 : b = (1 : Fin 2) := Fin.ext hqb.1.symm
  subst hb1
  refine ⟨by show 1 * (-1 : ℝ) ≤ 0; norm_num, .inr (.inr ?_)⟩
  rw [show alongSq (1 : Fin 2) ![(1 / 4 : ℝ), -1] = (1 / 4) ^ 2 from (erase2 1 _).trans (by simp)]
  show (1 / 4 : ℝ) ^ 2 < (1 / 2 * (-1)) ^ 2
  norm_num

/-- `C117`: with friction 1/2, a body pulled by gravity (1/4, -1) does not slide. -/
example (musl : Bool) {pm : PlasticModel} (hpm : pm = .noPlasticity ∨ pm = .vm ∨ pm = .dp) (bc : BC) :
    ∃ r, runProgram (setup musl 3 pm) true false 30 (start [Particle.init] ![1 / 4, -1] [table bc (1 / 2) 1]) = .finished r ∧
    (∀ n ≤ 3, ∃ t w, .particles n t w ∈ r.out) ∧
    ∀ n t w, .particles n t w ∈ r.out → List.Forall₂ Unchanged [Particle.init] w.ps :=
  stand_run musl hpm (by norm_num) rfl (slope_equilibrium musl 3 hpm bc)

end
end Verif.Props.RunEx
