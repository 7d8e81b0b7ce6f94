import Verif.Props.Geostatic
import Verif.Props.ConsistencyExamples
import Verif.Props.EquilibriumExamples
import Verif.Props.Galilei
import Verif.Lemmas.RoundGrid
import Verif.Lemmas.RoundTransfer

set_option linter.unusedSectionVars false
set_option linter.unusedSimpArgs false
set_option linter.unusedVariables false

/-!
# C125: a bed of material under weak gravity, without any support
-/

namespace Verif.Props.RunEx
open Verif Matrix
noncomputable section

/-! ### How far particles at rest can move in a step -/

lemma sum_bound {a : Fin 2} {B : ℝ} : ∀ {l : List (Fin 2 → ℝ)}, (∀ v ∈ l, |v a| ≤ B) → |l.sum a| ≤ l.length * B
  | [], _ => by simp
  | v :: l, h => by
    rw [List.sum_cons, Pi.add_apply, List.length_cons]
    have h1 := abs_add_le (v a) (l.sum a)
    have h2 := h v (by simp)
    have h3 := sum_bound (l := l) fun v hv => h v (by simp [hv])
    push_cast
    linarith

lemma grad_bound (X x : Fin 2 → ℝ) (b : Fin 2) : |shapeGrad .two 1 X x b| ≤ 1 := by
  have hN : ∀ t : ℝ, |N .two t| ≤ 1 := fun t => by rw [abs_of_nonneg (N_nonneg _ _)]; exact N_le_one _ _
  have hd : ∀ t : ℝ, |dNdu .two t / 1| ≤ 1 := fun t => by rw [div_one]; exact abs_dNdu_le .two (by simp) t
  rw [shapeGrad, Fin.prod_univ_two, abs_mul]
  refine mul_le_one₀ ?_ (abs_nonneg _) ?_ <;> split_ifs <;> first | exact hN _ | exact hd _

section
variable {ps : List (Particle 2 ℝ)} {S : Mpm.Scheme 2} {T γ : ℝ} (hrest : ∀ p ∈ ps, p.v = 0 ∧ p.Bmat = 0)
  (hint : ∀ p ∈ ps, ∀ a, ∃ j : ℤ, p.x a = j) (hT : ∀ p ∈ ps, ∀ i j, |p.tau i j| ≤ T) (hT0 : 0 ≤ T)
  (h1 : S.deg = .two) (h2 : S.dx = 1) (h3 : S.mass = 3) (h4 : S.volume = 1) (h5 : ∀ μ X v, S.wall μ X v = v)
  (h6 : 0 ≤ S.dt) (h7 : S.dt ≤ 1) (hγ : ∀ a, |S.gravity a| ≤ γ)
include hrest hint hT hT0 h1 h2 h3 h4 h5 h6 h7 hγ

lemma node_slow {X : Fin 2 → ℝ} (hX : ∀ a, ∃ j : ℤ, X a = j) (a : Fin 2) :
    |S.after ps X a| ≤ ps.length * (2 * T) * (64 / 3) + γ := by
  have hγ0 : 0 ≤ γ := (abs_nonneg _).trans (hγ a)
  unfold Mpm.Scheme.after
  split_ifs with hpos
  swap
  · rw [Pi.zero_apply, abs_zero]; positivity
  rw [h5, before_rest hrest, zero_add]
  have hM : 3 / 64 ≤ S.nodeMass ps X := by
    have hne : S.near ps X ≠ [] := by
      intro h; rw [Mpm.Scheme.nodeMass, h] at hpos; simp at hpos
    obtain ⟨p, hp⟩ := List.exists_mem_of_ne_nil _ hne
    have hp2 : 1 / 10 ^ 25 < shape S.deg S.dx X p.x := by
      have := (List.mem_filter.mp hp).2
      exact of_decide_eq_true this
    have hpp := List.mem_of_mem_filter hp
    have hw : 1 / 64 ≤ shape S.deg S.dx X p.x := by
      rw [h1, h2] at hp2 ⊢
      have hN : ∀ a, N .two ((p.x a - X a) / 1) = 0 ∨ 1 / 8 ≤ N .two ((p.x a - X a) / 1) := by
        intro a
        obtain ⟨i, hi⟩ := hint p hpp a
        obtain ⟨k, hk⟩ := hX a
        have : (p.x a - X a) / 1 = ((i - k : ℤ) : ℝ) := by rw [hi, hk]; push_cast; ring
        rw [this]
        exact N2_int _
      rw [shape2] at hp2 ⊢
      rcases hN 0 with h0 | h0
      · rw [h0, zero_mul] at hp2; norm_num at hp2
      rcases hN 1 with h1 | h1
      · rw [h1, mul_zero] at hp2; norm_num at hp2
      have := mul_le_mul h0 h1 (by norm_num) (by linarith)
      linarith
    have hle := List.single_le_sum (l := (S.near ps X).map fun p => S.mass * shape S.deg S.dx X p.x)
      (fun x hx => by
        obtain ⟨q, hq, rfl⟩ := List.mem_map.mp hx
        rw [h3]
        exact mul_nonneg (by norm_num) (Finset.prod_nonneg fun _ _ => N_nonneg _ _)) _ (List.mem_map_of_mem hp)
    rw [h3] at hle
    unfold Mpm.Scheme.nodeMass
    rw [h3]
    linarith
  have hF : |S.nodeForce ps X a| ≤ ps.length * (2 * T) := by
    unfold Mpm.Scheme.nodeForce
    rw [Pi.neg_apply, abs_neg]
    refine (sum_bound (B := 2 * T) fun v hv => ?_).trans ?_
    · obtain ⟨p, hp, rfl⟩ := List.mem_map.mp hv
      have hpp := List.mem_of_mem_filter hp
      rw [h4, one_smul, h1, h2]
      show |∑ b, p.tau a b * shapeGrad .two 1 X p.x b| ≤ _
      rw [Fin.sum_univ_two]
      refine (abs_add_le _ _).trans ?_
      rw [abs_mul, abs_mul]
      have e1 := mul_le_mul (hT p hpp a 0) (grad_bound X p.x 0) (abs_nonneg _) hT0
      have e2 := mul_le_mul (hT p hpp a 1) (grad_bound X p.x 1) (abs_nonneg _) hT0
      linarith
    · rw [List.length_map]
      have : (S.near ps X).length ≤ ps.length := List.length_filter_le _ _
      have : ((S.near ps X).length : ℝ) ≤ ps.length := by exact_mod_cast this
      exact mul_le_mul_of_nonneg_right this (by positivity)
  have hMi : |1 / S.nodeMass ps X| ≤ 64 / 3 := by
    rw [abs_of_pos (by positivity), div_le_iff₀ hpos]; linarith
  show |S.dt * (1 / S.nodeMass ps X * S.nodeForce ps X a + S.gravity a)| ≤ _
  rw [abs_mul, abs_of_nonneg h6]
  have e1 : |1 / S.nodeMass ps X * S.nodeForce ps X a + S.gravity a| ≤ ps.length * (2 * T) * (64 / 3) + γ := by
    refine (abs_add_le _ _).trans (add_le_add ?_ (hγ a))
    rw [abs_mul, mul_comm]
    exact mul_le_mul hF hMi (abs_nonneg _) (by positivity)
  calc S.dt * _ ≤ 1 * _ := mul_le_mul_of_nonneg_right h7 (abs_nonneg _)
    _ ≤ _ := by rw [one_mul]; exact e1

lemma interp_slow {g : Axes 2 ℝ} (h : Galilei.Place S .two 1 g ps) (ho : S.origin = 0) {p : Particle 2 ℝ} (hp : p ∈ ps) (a : Fin 2) :
    |S.interp (S.after ps) p.x a| ≤ ps.length * (2 * T) * (64 / 3) + γ := by
  have hg := h.good.good (deg := .two) hp
  rw [Mpm.Scheme.interp, overNodes_eq S h.dxEq h.dx_pos h.good.uniform h.lattice hg _ fun X a hX => by
    rw [h.dxEq, h.degEq, shape_far hX, zero_smul]]
  set s := stencilOf .two 1 g p.x with hs
  rw [Finset.sum_apply]
  refine (Finset.abs_sum_le_sum_abs _ _).trans ?_
  set B := ps.length * (2 * T) * (64 / 3) + γ
  calc _ ≤ ∑ c, s.weight c * B := Finset.sum_le_sum fun c _ => by
        rw [h.dxEq, h.degEq, ← hg.weight, Pi.smul_apply, smul_eq_mul, abs_mul, abs_of_nonneg (hg.ok.weight_nonneg c)]
        refine mul_le_mul_of_nonneg_left ?_ (hg.ok.weight_nonneg c)
        refine node_slow hrest hint hT hT0 h1 h2 h3 h4 h5 h6 h7 hγ (fun b => ?_) a
        rw [hg.pos]
        have hj := hg.ok.node_lt c b
        obtain ⟨k, hk⟩ := h.lattice b _ (List.getElem_mem hj)
        refine ⟨k, ?_⟩
        rw [nodeAt, List.getD_eq_getElem?_getD, List.getElem?_eq_getElem hj, Option.getD_some, hk, ho]
        simp
    _ = B := by rw [← Finset.sum_mul, hg.ok.sum_weight, one_mul]

end

/-! ### The bed -/

/-- The stress of a bed of depth 20 and density 3 under the gravity `1e-6`. -/
def bedStress (y : Fin 2 → ℝ) : Matrix (Fin 2) (Fin 2) ℝ := diagonal ![0, 3e-6 * (y 1 - 20)]

/-- A particle of the bed. -/
def grain (i j : ℕ) : Particle 2 ℝ :=
  { Particle.init with
    x := ![(i : ℝ), (j : ℝ)], F := diagonal ![Real.exp 0, Real.exp (3e-6 * (j - 20) / 2)], tau := bedStress ![(i : ℝ), (j : ℝ)] }

/-- 441 particles at the points with coordinates `0 .. 20`, at rest, with the stress of their depth. -/
def bed : List (Particle 2 ℝ) := ((List.range 21).product (List.range 21)).map fun ij => grain ij.1 ij.2

lemma bed_mem {p : Particle 2 ℝ} (hp : p ∈ bed) : ∃ i j : ℕ, i < 21 ∧ j < 21 ∧ p = grain i j := by
  obtain ⟨⟨i, j⟩, hij, rfl⟩ := List.mem_map.mp hp
  have := List.pair_mem_product.mp hij
  exact ⟨i, j, List.mem_range.mp this.1, List.mem_range.mp this.2, rfl⟩

lemma bed_nat {p : Particle 2 ℝ} (hp : p ∈ bed) (a : Fin 2) : ∃ k : ℕ, p.x a = k := by
  obtain ⟨i, j, -, -, rfl⟩ := bed_mem hp
  fin_cases a
  · exact ⟨i, by simp [grain]⟩
  · exact ⟨j, by simp [grain]⟩

lemma bed_int {p : Particle 2 ℝ} (hp : p ∈ bed) (a : Fin 2) : ∃ k : ℤ, p.x a = k := by
  obtain ⟨k, hk⟩ := bed_nat hp a
  exact ⟨k, by rw [hk]; norm_cast⟩

lemma bed_rest {p : Particle 2 ℝ} (hp : p ∈ bed) : p.v = 0 ∧ p.Bmat = 0 := by
  obtain ⟨i, j, -, -, rfl⟩ := bed_mem hp; exact ⟨rfl, rfl⟩

lemma bed_tau {p : Particle 2 ℝ} (hp : p ∈ bed) (a b : Fin 2) : |p.tau a b| ≤ 6e-5 := by
  obtain ⟨i, j, -, hj, rfl⟩ := bed_mem hp
  have h1 : (j : ℝ) ≤ 21 := by exact_mod_cast hj.le
  have h2 : (0 : ℝ) ≤ j := Nat.cast_nonneg _
  have h3 : |3e-6 * ((j : ℝ) - 20)| ≤ 6e-5 := abs_le.mpr ⟨by linarith, by linarith⟩
  show |diagonal ![(0 : ℝ), 3e-6 * ((j : ℝ) - 20)] a b| ≤ _
  by_cases hab : a = b
  · subst hab
    rw [diagonal_apply_eq]
    fin_cases a
    · show |(0 : ℝ)| ≤ _
      norm_num
    · exact h3
  · rw [diagonal_apply_ne _ hab]
    norm_num

lemma bed_origin : grain 0 0 ∈ bed := List.mem_map.mpr ⟨(0, 0), by simp [List.pair_mem_product], rfl⟩

lemma bed_least (a : Fin 2) :
    IsLeast (coords (none : Option (Fin 2 → ℝ)) (bed.map fun p => p.x) a) ((0 : Fin 2 → ℝ) a) := by
  refine ⟨.inl ⟨_, List.mem_map_of_mem bed_origin, by fin_cases a <;> simp [grain]⟩, ?_⟩
  rintro y (⟨x, hx, rfl⟩ | ⟨r, hr, -⟩)
  · obtain ⟨p, hp, rfl⟩ := List.mem_map.mp hx
    obtain ⟨j, hj⟩ := bed_nat hp a
    rw [hj]
    exact Nat.cast_nonneg _
  · cases hr

lemma bed_regular : LatticeNear 1 10 ![10, 10] (bed.map fun q => q.x) := by
  refine ⟨0, fun z hz => ?_, fun y hy _ => ?_⟩
  · have hb : ∀ a, 0 ≤ z a ∧ z a < 21 := by
      intro a
      have h := hz a
      have h5 : (![10, 10] : Fin 2 → ℝ) a = 10 := by fin_cases a <;> rfl
      rw [h5, abs_lt] at h
      simp only [Pi.zero_apply] at h
      constructor
      · have : (-1 : ℝ) < z a := by linarith
        have : -1 < z a := by exact_mod_cast this
        omega
      · have : (z a : ℝ) < 21 := by linarith
        exact_mod_cast this
    rw [bed, List.map_map]
    refine List.count_eq_one_of_mem (List.Nodup.map ?_ (List.nodup_range.product List.nodup_range)) ?_
    · rintro ⟨i, j⟩ ⟨i', j'⟩ h
      have h0 := congrFun h 0
      have h1 := congrFun h 1
      simp [grain] at h0 h1
      rw [h0, h1]
    · refine List.mem_map.mpr ⟨((z 0).toNat, (z 1).toNat), List.pair_mem_product.mpr
        ⟨List.mem_range.mpr (by have := hb 0; omega), List.mem_range.mpr (by have := hb 1; omega)⟩, ?_⟩
      have e : ∀ a, (((z a).toNat : ℕ) : ℝ) = z a := fun a => by exact_mod_cast Int.toNat_of_nonneg (hb a).1
      funext a
      fin_cases a <;> simp [e, grain]
  · obtain ⟨p, hp, rfl⟩ := List.mem_map.mp hy
    obtain ⟨i, j, -, -, rfl⟩ := bed_mem hp
    refine ⟨![i, j], ?_⟩
    funext a
    fin_cases a <;> simp [grain]

lemma grain_dormant {i j : ℕ} (hj : j < 21) : Dormant (Ex.mat .vm) (grain i j) := by
  set b : ℝ := 3e-6 * (j - 20) / 2 with hb
  have h1 : (j : ℝ) ≤ 20 := by exact_mod_cast Nat.lt_succ_iff.mp hj
  have h2 : (0 : ℝ) ≤ j := Nat.cast_nonneg _
  have hb0 : b ≤ 0 := by rw [hb]; linarith
  have hb1 : -1 / 4 ≤ b := by rw [hb]; linarith
  have eF : (⟨1, 1, 1⟩ : Svd 2).expF ![0, b] = (grain i j).F := by
    show (1 : Matrix (Fin 2) (Fin 2) ℝ) * diagonal _ * 1ᵀ = _
    rw [Matrix.transpose_one, Matrix.mul_one, Matrix.one_mul]
    show _ = diagonal ![Real.exp 0, Real.exp (3e-6 * (j - 20) / 2)]
    congr 1
    ext i; fin_cases i <;> rfl
  have eT : henckyTau (Ex.mat .vm).lam (Ex.mat .vm).mu 1 ![0, b] = (grain i j).tau := by
    rw [henckyTau, Ex.mat_mu]
    show _ = diagonal ![(0 : ℝ), 3e-6 * (j - 20)]
    ext i j
    fin_cases i <;> fin_cases j <;> simp [Ex.mat_lam, Fin.sum_univ_two, hb] <;> ring
  refine ⟨rfl, rfl, ?_, fun s hs a => ?_, ?_⟩
  · have := henckyStress_expF (s := (⟨1, 1, 1⟩ : Svd 2)) (by simp) (by simp) (Ex.mat .vm).lam (Ex.mat .vm).mu ![0, b]
    rw [eF] at this
    show IsHenckyStress _ _ _ _
    rw [← eT]
    exact this
  · have h0 := Ex.isSvd 0 b
    have hs' : IsSvd (Ex.part 0 b).F s := hs
    have e := (svd_fun_left h0.orthU h0.orthV hs.orthU hs.orthV h0.nonneg hs.nonneg (h0.eq.symm.trans hs'.eq)
      fun x => if x < 1e-4 then 1 else 0).2
    have hbig := fun i => Ex.big (a := 0) (b := b) (by norm_num) (by linarith) (Ex.part 0 b).F i
    rw [Finset.sum_eq_zero fun i _ => if_neg (not_lt.mpr (hbig i))] at e
    have := (Finset.sum_eq_zero_iff_of_nonneg fun i _ => by split_ifs <;> norm_num).mp e.symm a (Finset.mem_univ a)
    by_contra hlt
    rw [if_pos (not_le.mp hlt)] at this
    exact one_ne_zero this
  · have h := ex_trial .vm (a := 0) (b := b) (by norm_num) (by linarith) _ (Ex.isSvd 0 b)
    have e : elasticTau (Ex.mat .vm) (Ex.svd 0 b (Ex.part 0 b).F) = (grain i j).tau := by
      rw [elasticTau_eq (Ex.isSvd 0 b), Ex.hencky (by norm_num) (by linarith)]
      exact eT
    rw [trialP, trialQ, e] at h
    show savedQ _ _ ≤ _
    rw [h.2, zero_sub, abs_neg, abs_of_nonpos hb0]
    norm_num [Ex.mat]
    linarith

lemma bed_dormant : DormantIn (Ex.mat .vm) (1 / (1 : ℕ)) ![10, 10] 10 bedStress bed := by
  refine ⟨by norm_num; exact bed_regular, fun p hp _ => ?_⟩
  obtain ⟨i, j, -, hj, rfl⟩ := bed_mem hp
  exact ⟨grain_dormant hj, rfl⟩

lemma bedStress_quadratic : IsQuadratic bedStress := by
  refine ⟨diagonal ![0, -6e-5], ![0, diagonal ![0, 3e-6]], fun _ _ => 0, fun y => ?_⟩
  ext i j
  fin_cases i <;> fin_cases j <;> simp [bedStress, Fin.sum_univ_two] <;> ring

lemma bedStress_divergence (y : Fin 2 → ℝ) : divergence bedStress y = ![0, 3e-6] := by
  have h : ∀ t, bedStress t = bedStress y +
      ∑ a, (t a - y a) • (![0, diagonal ![0, 3e-6]] : Fin 2 → Matrix (Fin 2) (Fin 2) ℝ) a +
      ∑ a, ∑ c, ((t a - y a) * (t c - y c)) • (0 : Matrix (Fin 2) (Fin 2) ℝ) := by
    intro t
    ext i j
    fin_cases i <;> fin_cases j <;> simp [bedStress, Fin.sum_univ_two] <;> ring
  rw [divergence_eq h]
  funext i
  fin_cases i <;> simp [Fin.sum_univ_two]

section
variable (musl : Bool) {s1 : LoopState 2 (World 2)} {dt : ℝ} {g : Fin 2 → ℝ} {w : World 2}
  (hst : StepOf (d := 0) (setup musl 1 .vm) (start bed ![0, -1e-6]) s1 dt g w)
include hst

lemma bed_begin : s1.w.ps = bed ∧ s1.w.plates = [] := by
  obtain ⟨k, hr, -⟩ := hst
  have hk := only_begin_of (R := setup musl 1 .vm) rfl (List.ne_nil_of_mem bed_origin) (fun p hp => (bed_rest hp).1) ![0, -1e-6] k s1 hr
  subst hk
  cases hr
  rw [begin_w]
  simp [fillMuI, setup, start, mkTransferParams]

lemma bed_lattice : OnLattice (0 : Fin 2 → ℝ) 1 w.g := by
  obtain ⟨m0, h0, h1⟩ := run_lattice (d := 0) (R := setup musl 1 .vm) (dx := 1) rfl one_pos rfl rfl
    (List.ne_nil_of_mem bed_origin) hst
  have : m0 = 0 := funext fun a => (h0 a).unique (bed_least a)
  exact this ▸ h1

lemma bed_noTiny : NoTinyWeights .two 1 w.g s1.w.ps := by
  rw [(bed_begin musl hst).1]
  intro p hp j hj
  have hN : ∀ a, N .two ((p.x a - nodeAt w.g j a) / 1) = 0 ∨ 1 / 8 ≤ N .two ((p.x a - nodeAt w.g j a) / 1) := by
    intro a
    obtain ⟨i, hi⟩ := bed_nat hp a
    obtain ⟨k, hk⟩ := bed_lattice musl hst a _ (List.getElem_mem (hj a))
    have : (p.x a - nodeAt w.g j a) / 1 = ((i - k : ℤ) : ℝ) := by
      rw [nodeAt, List.getD_eq_getElem?_getD, List.getElem?_eq_getElem (hj a), Option.getD_some, hk, hi, Pi.zero_apply]
      push_cast; ring
    rw [this]
    exact N2_int _
  rw [shape2]
  rcases hN 0 with h0 | h0
  · left; rw [h0, zero_mul]
  rcases hN 1 with h1 | h1
  · left; rw [h1, mul_zero]
  right
  have := mul_le_mul h0 h1 (by norm_num) (by linarith)
  exact lt_of_lt_of_le (by norm_num) this

lemma bed_moves : MovesAtMost 2 s1.w.ps w.ps := by
  have hg : g = ![0, -1e-6] := by
    rw [hst.gravity_at, gravityAt]; simp [setup, cfg, start]
  subst hg
  obtain ⟨hps, hpl⟩ := bed_begin musl hst
  have hle := hst.dt_le
  have hmax : max (setup musl 1 .vm).C.dtMax (setup musl 1 .vm).C.minDt = 1 := by
    show max (exConfig (1 / 10) 1).dtMax (exConfig (1 / 10) 1).minDt = 1
    rw [ex_dtMax]; norm_num [exConfig]
  rw [hmax] at hle
  have hdt : 0 < dt := lt_of_lt_of_le (by norm_num [setup, cfg, exConfig]) hst.dt_ge.1
  have hl := bed_lattice musl hst
  have hgood := physStep_goodGrid (R := setup musl 1 .vm) rfl one_pos rfl hst.phys
  obtain ⟨h1, -, -⟩ := C105_step (d := 0) (R := setup musl 1 .vm) (deg := .two) (dx := 1) (fr := -19 / 20) (m := 3) (vol := 1)
    (mibf := false) rfl (by simp) one_pos (by norm_num) rfl (fun _ => by simp [setup]) hst.phys hl
  set S := schemeOf (d := 0) (setup musl 1 .vm) 0 dt ![0, -1e-6] s1.w.plates with hS
  unfold Mpm.Scheme.step at h1
  obtain ⟨rs, hrs, h1⟩ := Option.map_eq_some_iff.mp h1
  simp only [Prod.mk.injEq] at h1
  unfold MovesAtMost
  rw [← h1.1, List.forall₂_map_right_iff]
  refine (Rotation.forall₂_of_mapM hrs).imp fun p r h a => ?_
  obtain ⟨o, -, rfl⟩ := Option.map_eq_some_iff.mp (show (S.law (S.trial s1.w.ps p)).map _ = some r from h.2)
  have hplace : S.place = id := rfl
  show |S.place (p.x + dt • S.interp (S.after s1.w.ps) p.x) a - p.x a| ≤ 2
  rw [hplace]
  show |p.x a + dt * S.interp (S.after s1.w.ps) p.x a - p.x a| ≤ 2
  rw [add_sub_cancel_left, abs_mul, abs_of_pos hdt]
  have hP : Galilei.Place S .two 1 w.g s1.w.ps :=
    ⟨rfl, rfl, by simp, one_pos, by show (0 : ℝ) < 3; norm_num, hgood, hl, bed_noTiny musl hst⟩
  have := interp_slow (ps := s1.w.ps) (S := S) (T := 6e-5) (γ := 1e-6) (by rw [hps]; exact fun p hp => bed_rest hp)
    (by rw [hps]; exact fun p hp a => bed_int hp a) (by rw [hps]; exact fun p hp => bed_tau hp) (by norm_num)
    rfl rfl rfl rfl (fun μ X v => collide_none (by simp [setup]) (by rw [hpl]; simp)) hdt.le hle
    (fun a => by
      show |(![0, -1e-6] : Fin 2 → ℝ) a| ≤ _
      fin_cases a <;> norm_num [abs_of_nonneg]) hP rfl h.1 a
  have hlen : (s1.w.ps.length : ℝ) = 441 := by
    rw [hps, bed, List.length_map, show ((List.range 21).product (List.range 21)).length = 441 from
      (List.length_product _ _).trans (by simp)]; norm_num
  rw [hlen] at this
  calc dt * _ ≤ 1 * _ := mul_le_mul_of_nonneg_right hle (abs_nonneg _)
    _ ≤ 2 := by rw [one_mul]; refine this.trans ?_; norm_num

end

/-- `C125` for the bed, with and without MUSL: in the file after the step, the particles in the middle are unchanged, with their
stresses. (The bed has no support, so at its lower surface it moves.) -/
example (musl : Bool) : ∃ t w, .particles 1 t w ∈
      filesOf (runProgram (setup musl 1 .vm) true false 10 (start bed ![0, -1e-6])) ∧
    List.Forall₂ (fun p q => p.x = ![10, 10] → q.x = p.x ∧ q.v = 0 ∧ q.tau = diagonal ![0, -3e-5]) bed w.ps ∧
    ∃ p ∈ bed, p.x = ![10, 10] := by
  obtain ⟨r, h, t, w, hw⟩ := one_step_run musl (.inl rfl) (ps := bed) (List.ne_nil_of_mem bed_origin)
    (fun p hp => (bed_rest hp).1) ![0, -1e-6]
  have hev : .particles 1 t w ∈ filesOf (runProgram (setup musl 1 .vm) true false 10 (start bed ![0, -1e-6])) := by
    rw [h]; exact hw
  rcases run_particles (d := 0) hev (by simp [start]) with ⟨h0, -⟩ | ⟨s1, dt, g, ⟨k, hst⟩, -⟩
  · exact absurd h0 (by norm_num)
  obtain rfl := only_begin_of (R := setup musl 1 .vm) rfl (List.ne_nil_of_mem bed_origin) (fun p hp => (bed_rest hp).1) ![0, -1e-6] k s1 hst.1
  have key := C125_steps (d := 0) (R := setup musl 1 .vm) (s := start bed ![0, -1e-6]) (deg := .two) (dx := 1) (fr := -19 / 20)
    (m := 3) (vol := 1) (mibf := false) (k := 1) rfl (by simp) one_pos (by norm_num) one_pos rfl rfl (fun _ _ => by simp [setup])
    (ex_sensible (.inr (.inl rfl))) someSvd_isSvd rfl (fun _ _ _ _ h => bed_noTiny musl h) bedStress_quadratic
    (fun y => by
      rw [bedStress_divergence]
      show _ = -(![0, -1e-6] : Fin 2 → ℝ)
      ext a
      fin_cases a <;> norm_num)
    (c := ![10, 10]) (r := 10) (δ := 2) (by norm_num) bed_dormant (fun _ _ _ _ h => bed_moves musl h)
    (fun _ _ _ _ h z _ => by rw [(bed_begin musl h).2]; simp [setup]) hst
  refine ⟨t, w, hev, forall₂_imp_mem key fun p hp q hq hx => ?_, ?_⟩
  · have hu := hq (.inl fun a => by rw [hx, sub_self, abs_zero]; norm_num [width])
    refine ⟨hu.1, by rw [hu.2.1]; exact (bed_rest hp).1, ?_⟩
    rw [hu.2.2.2.2.1]
    obtain ⟨i, j, -, -, rfl⟩ := bed_mem hp
    have e : (j : ℝ) = 10 := congrFun hx 1
    show bedStress ![(i : ℝ), (j : ℝ)] = _
    rw [bedStress]
    congr 1
    ext a
    fin_cases a <;> simp [e] <;> norm_num
  · exact ⟨_, List.mem_map.mpr ⟨(10, 10), by simp [List.pair_mem_product], rfl⟩, by simp [grain]⟩

end

end Verif.Props.RunEx
