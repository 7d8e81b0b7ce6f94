import Verif.Props.NewtonVisc
import Verif.Props.CamClayMui
import Verif.Props.Search

set_option linter.unusedSectionVars false
set_option linter.unusedSimpArgs false
set_option linter.unusedVariables false

/-!
# C79, implicit hardening: one equation for the new plastic volumetric strain

The flow rule fixes the pressure, the plastic multiplier and the shear stress as functions of the plastic volumetric
strain `e` (`pressureAt`, `multAt`, `shearAt`); the unknown is the strain for which the yield function vanishes
(`yieldAt`). All stresses are divided by the preconsolidation pressure of the trial state.
-/

namespace Verif.Props
open Verif Matrix

variable {d : ℕ}

section
variable (law : ℝ → ℝ) (M beta mu K pT qT eT : ℝ)

/-- The plastic multiplier: the pressure change divided by stiffness and derivative of the yield function. -/
noncomputable def multAt (e : ℝ) : ℝ :=
  (pT - pressureAt eT K pT e) / (K * deriv (fun p => camYield M (law e) beta p 0) (pressureAt eT K pT e))

/-- The shear stress `q` with `q = qT - mu * multiplier * 2 q`. -/
noncomputable def shearAt (e : ℝ) : ℝ := qT / (1 + 2 * mu * multAt law M beta K pT eT e)

/-- The yield function at the strain `e`. -/
noncomputable def yieldAt (e : ℝ) : ℝ :=
  camYield M (law e) beta (pressureAt eT K pT e) (shearAt law M beta mu K pT qT eT e)

/-- State of the solver: the strain of the last pass, the present strain, the side of the centre. -/
structure Probe where
  last : ℝ
  e : ℝ
  side : ℤ

/-- One pass: the Newton step `Y / S` is limited by the search. `slope e` is the derivative of the law used. -/
def ImplStep (slope : ℝ → ℝ) (x x' : Probe) : Prop :=
  ∃ S, HasDerivAt (yieldAt (fun t => law x.e + slope x.e * (t - x.e)) M beta mu K pT qT eT) S x.e ∧ S ≠ 0 ∧
    SearchOk law eT K pT beta x.side x.e (yieldAt law M beta mu K pT qT eT x.e / S) (.found x'.e x'.side) ∧
    x'.last = x.e

/-- The search of this pass finds nothing. -/
def ImplFail (slope : ℝ → ℝ) (x : Probe) : Prop :=
  ∃ S, HasDerivAt (yieldAt (fun t => law x.e + slope x.e * (t - x.e)) M beta mu K pT qT eT) S x.e ∧ S ≠ 0 ∧
    SearchOk law eT K pT beta x.side x.e (yieldAt law M beta mu K pT qT eT x.e / S) .failed

/-- The pressure of the last pass is that of the centre of the ellipse. -/
def AtCentre (x : Probe) : Prop := |pressureAt eT K pT x.last - centreAt law beta x.last| < 1e-4

/-- The yield function is small, after at least six passes. -/
def YieldSmall (cabs : ℝ → ℝ) (i : ℕ) (x : Probe) : Prop :=
  5 < i ∧ cabs (yieldAt law M beta mu K pT qT eT x.e) < 1e-4

/-- The solver makes at most `N` passes and ends with the strain `e`; `flag` tells whether an error is reported, where
`late` says whether not to converge in the last pass is an error. -/
def ImplSolved (cabs slope : ℝ → ℝ) (late : ℝ → Bool) (N : ℕ) (side : ℤ) (e : ℝ) (centre flag : Bool) : Prop :=
  ∃ n ≤ N, ∃ x, Reached (ImplStep law M beta mu K pT qT eT slope)
      (fun i x => AtCentre law beta K pT eT x ∨ YieldSmall law M beta mu K pT qT eT cabs i x) ⟨eT, eT, side⟩ n x ∧
    (n < N ∧ AtCentre law beta K pT eT x ∧ e = x.last ∧ centre = true ∧ flag = false ∨
     n < N ∧ ¬ AtCentre law beta K pT eT x ∧ YieldSmall law M beta mu K pT qT eT cabs n x ∧ e = x.e ∧ centre = false ∧
       flag = false ∨
     n < N ∧ ¬ AtCentre law beta K pT eT x ∧ ¬ YieldSmall law M beta mu K pT qT eT cabs n x ∧
       ImplFail law M beta mu K pT qT eT slope x ∧ e = x.e ∧ centre = false ∧ flag = true ∨
     n = N ∧ e = x.last ∧ centre = false ∧ flag = late (law x.last))
end

variable {law slope cabs : ℝ → ℝ} {late : ℝ → Bool} {M beta mu K pT qT eT : ℝ}

lemma multAt_eq (e : ℝ) : multAt law M beta K pT eT e = (pT - pressureAt eT K pT e) /
    (2 * K * (M * M) * pressureAt eT K pT e + M * M * (beta - 1) * K * law e) := by
  unfold multAt
  rw [(camYield_dp M (law e) beta _ 0).deriv]
  congr 1; ring

/-- The derivative as computed, for a law `L` that agrees with the one used up to first order. -/
lemma yieldAt_deriv {L : ℝ → ℝ} {e D c : ℝ} (hL : L e = c) (hD : HasDerivAt L D e) {den qd dg q : ℝ}
    (hden : den = 2 * K * (M * M) * pressureAt eT K pT e + M * M * (beta - 1) * K * c) (h0 : den ≠ 0)
    (hdg : dg = (pT - pressureAt eT K pT e) / den) (hqd : qd = 1 + 2 * mu * 1 * dg) (h1 : qd ≠ 0) (hq : q = qT / qd) :
    HasDerivAt (yieldAt L M beta mu K pT qT eT)
      (M * M * (K - D) * (pressureAt eT K pT e + beta * c) + M * M * (pressureAt eT K pT e - c) * (beta * D + K) +
        2 * 1 * q * (-qT * 2 * mu * 1 *
          (-K / den - (pT - pressureAt eT K pT e) * (2 * K * (M * M) * K + M * M * (beta - 1) * K * D) / (den * den)) /
            (qd * qd))) e := by
  have hp : HasDerivAt (pressureAt eT K pT) K e := by
    have h := (((hasDerivAt_id e).sub_const eT).const_mul K).add_const pT
    exact h.congr_deriv (mul_one K)
  have hden' : HasDerivAt (fun e => 2 * K * (M * M) * pressureAt eT K pT e + M * M * (beta - 1) * K * L e)
      (2 * K * (M * M) * K + M * M * (beta - 1) * K * D) e := (hp.const_mul _).add (hD.const_mul _)
  have hdgd := (hp.const_sub pT).div hden' (by rw [hL, ← hden]; exact h0)
  have hqdd : HasDerivAt (fun e => 1 + 2 * mu * ((pT - pressureAt eT K pT e) /
      (2 * K * (M * M) * pressureAt eT K pT e + M * M * (beta - 1) * K * L e))) _ e :=
    (hdgd.const_mul (2 * mu)).const_add 1
  have hne : 1 + 2 * mu * ((pT - pressureAt eT K pT e) /
      (2 * K * (M * M) * pressureAt eT K pT e + M * M * (beta - 1) * K * L e)) = qd := by
    rw [hL, ← hden, ← hdg, hqd]; ring
  have hqq := (hasDerivAt_const e qT).div hqdd (by rw [hne]; exact h1)
  have hy := (((hp.sub hD).const_mul (M ^ 2)).mul (hp.add (hD.const_mul beta))).add (hqq.pow 2)
  have efun : yieldAt L M beta mu K pT qT eT = fun e =>
      M ^ 2 * (pressureAt eT K pT e - L e) * (pressureAt eT K pT e + beta * L e) +
        (qT / (1 + 2 * mu * ((pT - pressureAt eT K pT e) /
          (2 * K * (M * M) * pressureAt eT K pT e + M * M * (beta - 1) * K * L e)))) ^ 2 := by
    funext t
    simp only [yieldAt, camYield, shearAt, multAt_eq]
  rw [efun]
  refine hy.congr_deriv ?_
  simp only [Pi.sub_apply, Pi.add_apply, Pi.div_apply, Pi.mul_apply, hne]
  rw [hL, ← hden, hq]
  clear hdg hy hqq hqdd hdgd hden' hne efun hq hqd hp hden
  generalize pressureAt eT K pT e = P
  simp only [Nat.reduceSub, pow_one, Nat.cast_ofNat]
  field_simp
  ring

lemma implicitLoop_trace : ∀ (n it : ℕ) (x : Probe) (exit : Bool) (r : Bool × ℝ × ℝ × Bool),
    implicitLoop cabs law slope late M beta mu K pT qT eT n it (pressureAt eT K pT x.last) (law x.last) x.e x.side exit =
      some r →
    ∃ k ≤ n, ∃ y, Reached (ImplStep law M beta mu K pT qT eT slope)
      (fun i x => AtCentre law beta K pT eT x ∨ YieldSmall law M beta mu K pT qT eT cabs (it + i) x) x k y ∧
    ∃ e centre flag,
    (k < n ∧ AtCentre law beta K pT eT y ∧ e = y.last ∧ centre = true ∧ flag = false ∨
     k < n ∧ ¬ AtCentre law beta K pT eT y ∧ YieldSmall law M beta mu K pT qT eT cabs (it + k) y ∧ e = y.e ∧
       centre = false ∧ flag = false ∨
     k < n ∧ ¬ AtCentre law beta K pT eT y ∧ ¬ YieldSmall law M beta mu K pT qT eT cabs (it + k) y ∧
       ImplFail law M beta mu K pT qT eT slope y ∧ e = y.e ∧ centre = false ∧ flag = true ∨
     k = n ∧ e = y.last ∧ centre = false ∧ flag = (decide (0 < n) && late (law y.last))) ∧
    r = (centre, pressureAt eT K pT e, law e, exit || flag) := by
  intro n
  induction n with
  | zero =>
    intro it x exit r h
    rw [implicitLoop, Option.some.injEq] at h
    exact ⟨0, le_rfl, x, Reached.refl _ _ _, x.last, false, false, Or.inr (Or.inr (Or.inr ⟨rfl, rfl, rfl, by simp⟩)), by rw [← h]; simp⟩
  | succ n ih =>
    intro it x exit r h
    rw [implicitLoop] at h
    have hcen : |pressureAt eT K pT x.last - (law x.last - beta * law x.last) * 0.5| < 1e-4 ↔
        AtCentre law beta K pT eT x := by
      unfold AtCentre centreAt
      rw [show (law x.last - beta * law x.last) * 0.5 = (1 - beta) * law x.last / 2 by ring]
    simp only [hcen] at h
    by_cases hc : AtCentre law beta K pT eT x
    · rw [if_pos (hcen.mpr hc), Option.some.injEq] at h
      exact ⟨0, Nat.zero_le _, x, Reached.refl _ _ _, x.last, true, false,
        Or.inl ⟨Nat.succ_pos n, hc, rfl, rfl, rfl⟩, by rw [← h]; simp⟩
    rw [if_neg (mt hcen.mp hc)] at h
    simp only [Option.bind_eq_bind, Option.bind_eq_some_iff] at h
    obtain ⟨dg, hdg, q, hq, h⟩ := h
    have hpe : (x.e - eT) * K + pT = pressureAt eT K pT x.e := by unfold pressureAt; ring
    rw [hpe] at hdg
    simp only [hpe] at h
    obtain ⟨h0, hdg⟩ := fdiv_eq_some hdg
    obtain ⟨h1, hq⟩ := fdiv_eq_some hq
    have hy : M * M * (pressureAt eT K pT x.e - law x.e) * (pressureAt eT K pT x.e + beta * law x.e) + 1 * q * q =
        yieldAt law M beta mu K pT qT eT x.e := by
      simp only [yieldAt, camYield, shearAt, multAt_eq]
      rw [← hdg, show 1 + 2 * mu * dg = 1 + 2 * mu * 1 * dg by ring, ← hq]
      ring
    rw [hy] at h
    by_cases hs : 5 < it ∧ cabs (yieldAt law M beta mu K pT qT eT x.e) < 1e-4
    · rw [if_pos hs, Option.some.injEq] at h
      exact ⟨0, Nat.zero_le _, x, Reached.refl _ _ _, x.e, false, false,
        Or.inr (Or.inl ⟨Nat.succ_pos n, hc, hs, rfl, rfl, rfl⟩), by rw [← h]; simp⟩
    rw [if_neg hs] at h
    simp only [Option.bind_eq_some_iff] at h
    obtain ⟨a, ha, b, hb, dq, hdq, st, hst, s, hsr, h⟩ := h
    obtain ⟨-, rfl⟩ := fdiv_eq_some ha
    obtain ⟨-, rfl⟩ := fdiv_eq_some hb
    obtain ⟨-, rfl⟩ := fdiv_eq_some hdq
    obtain ⟨hS0, rfl⟩ := fdiv_eq_some hst
    have hlin : HasDerivAt (fun t => law x.e + slope x.e * (t - x.e)) (slope x.e) x.e := by
      have h := (((hasDerivAt_id x.e).sub_const x.e).const_mul (slope x.e)).const_add (law x.e)
      exact h.congr_deriv (mul_one _)
    have hder := yieldAt_deriv (M := M) (beta := beta) (mu := mu) (K := K) (pT := pT) (qT := qT) (eT := eT)
      (L := fun t => law x.e + slope x.e * (t - x.e)) (c := law x.e) (by simp) hlin rfl h0 hdg rfl h1 hq
    obtain ⟨res, hres, hok⟩ := C52_search law x.e eT (yieldAt law M beta mu K pT qT eT x.e / _) K pT beta x.side
    rw [hres, Option.some.injEq] at hsr
    subst hsr
    cases res with
    | failed =>
      simp only [Option.some.injEq] at h
      exact ⟨0, Nat.zero_le _, x, Reached.refl _ _ _, x.e, false, true,
        Or.inr (Or.inr (Or.inl ⟨Nat.succ_pos n, hc, hs, ⟨_, hder, hS0, hok⟩, rfl, rfl, rfl⟩)), by rw [← h]; simp⟩
    | found e rr =>
      simp only at h
      obtain ⟨k, hk, y, hR, e', cen, flag, hend, hr⟩ := ih (it + 1) ⟨x.e, e, rr⟩ _ r h
      have ei : ∀ i, it + 1 + i = it + (i + 1) := fun i => by omega
      simp only [ei] at hR hend
      refine ⟨k + 1, by omega, y, Reached.cons (by rintro (h | h); exacts [hc h, hs h]) ⟨_, hder, hS0, hok, rfl⟩ hR,
        e', cen, flag || (n == 0 && late (law x.e)), ?_, ?_⟩
      · cases n with
        | zero =>
          have hk0 : k = 0 := by omega
          subst hk0
          obtain ⟨xs, b1, b2, -⟩ := hR
          have hyl : y.last = x.e := by rw [← b2, b1]
          rcases hend with h | h | h | ⟨-, h2, h3, h4⟩
          · exact absurd h.1 (lt_irrefl _)
          · exact absurd h.1 (lt_irrefl _)
          · exact absurd h.1 (lt_irrefl _)
          · exact Or.inr (Or.inr (Or.inr ⟨rfl, h2, h3, by rw [h4, hyl]; simp⟩))
        | succ n =>
          simp only [show (n + 1 == 0) = false from rfl, Bool.false_and, Bool.or_false]
          simp only [Nat.succ_pos, decide_true, Bool.true_and] at hend ⊢
          rcases hend with ⟨a, h⟩ | ⟨a, h⟩ | ⟨a, h⟩ | ⟨a, h⟩
          · exact Or.inl ⟨by omega, h⟩
          · exact Or.inr (Or.inl ⟨by omega, h⟩)
          · exact Or.inr (Or.inr (Or.inl ⟨by omega, h⟩))
          · exact Or.inr (Or.inr (Or.inr ⟨by omega, h⟩))
      · rw [hr]
        congr 3
        cases exit <;> cases flag <;> simp

lemma implicitLoop_solved {n : ℕ} (hn : 0 < n) {side : ℤ} {exit : Bool} {r : Bool × ℝ × ℝ × Bool} {p p0 : ℝ}
    (hp : p = pT) (hp0 : p0 = law eT)
    (h : implicitLoop cabs law slope late M beta mu K pT qT eT n 0 p p0 eT side exit = some r) :
    ∃ e centre flag, ImplSolved law M beta mu K pT qT eT cabs slope late n side e centre flag ∧
      r = (centre, pressureAt eT K pT e, law e, exit || flag) := by
  have h' : implicitLoop cabs law slope late M beta mu K pT qT eT n 0 (pressureAt eT K pT eT) (law eT) eT side exit
      = some r := by
    rw [show pressureAt eT K pT eT = p by rw [hp]; simp [pressureAt], ← hp0]; exact h
  obtain ⟨k, hk, y, hR, e, cen, flag, hend, hr⟩ := implicitLoop_trace n 0 ⟨eT, eT, side⟩ exit r h'
  simp only [Nat.zero_add, hn, decide_true, Bool.true_and] at hR hend
  exact ⟨e, cen, flag, ⟨k, hk, y, hR, hend⟩, hr⟩

lemma implicitFinish_p {M beta p0T : ℝ} {c f : Bool} {p p0 : ℝ} {s : Rma}
    (h : implicitFinish M beta p0T (c, p, p0, f) = some s) :
    s.p = (if c then p else clipP p0 beta p) * p0T ∧ s.exit = f := by
  unfold implicitFinish at h
  cases c with
  | true =>
    simp only [if_true] at h
    obtain ⟨w, -, h⟩ := Option.bind_eq_some_iff.mp h
    rw [← Option.some.inj h]; simp
  | false =>
    simp only [Bool.false_eq_true, if_false] at h
    obtain ⟨w, hw, h⟩ := Option.bind_eq_some_iff.mp h
    rw [← Option.some.inj h]
    exact ⟨by rw [rmaFinish_clip hw]; simp, rfl⟩

/-- Side of the centre of the ellipse (of unit size) on which the pressure lies. -/
def SideOf (beta p : ℝ) (side : ℤ) : Prop :=
  ((1 - beta) / 2 < p → side = 1) ∧ (p ≤ (1 - beta) / 2 → side = 0)

lemma sideOf (beta p : ℝ) : SideOf beta p (if p > 0.5 * (1 - beta * 1) then 1 else 0) := by
  constructor
  · intro h; rw [if_pos (by linarith)]
  · intro h; rw [if_neg (by linarith)]

/-- **C79**, implicit mapping with the exponential law. The step of the solver is a Newton step for `yieldAt` because
`-xi` times the law is the derivative of the law. All stresses are divided by the preconsolidation pressure `pc` of the
trial state. Thirty passes without convergence are not reported. -/
theorem C79_implicitExponential {cabs : ℝ → ℝ} {p q M p00 beta mu K xi epv pc : ℝ} {exit : Bool} (hp : 0 < p00)
    (hpc : pc = p00 * Real.exp (-xi * epv)) {r : Rma}
    (h : mccRmaImplicitExponentialOnevar cabs p q exit M p00 beta mu K xi epv = some r)
    (hout : OutsideEllipse M pc beta p q) :
    ∃ law slope side e centre flag, (∀ t, law t = p00 / pc * Real.exp (-xi * t)) ∧ (∀ t, HasDerivAt law (slope t) t) ∧
      SideOf beta (p / pc) side ∧
      ImplSolved law M beta (mu / pc) (K / pc) (p / pc) (q / pc) epv cabs slope (fun _ => false) 30 side e centre flag ∧
      r.p = pc * (if centre then pressureAt epv (K / pc) (p / pc) e
        else clipP (law e) beta (pressureAt epv (K / pc) (p / pc) e)) ∧
      r.exit = (exit || flag) := by
  unfold mccRmaImplicitExponentialOnevar at h
  simp only [← hpc] at h
  have hT : 0 < pc := by rw [hpc]; positivity
  have hy : ¬ (M * M * (p * p + (beta - 1) * pc * p - beta * pc * pc) + 1 * q * q ≤ 0) := by
    unfold OutsideEllipse at hout
    rw [not_le]; linarith
  rw [if_neg hy, fdiv_of_ne hT.ne'] at h
  simp only [Option.bind_eq_bind, Option.bind_some, Option.bind_eq_some_iff] at h
  obtain ⟨s, hs, h⟩ := h
  simp only [mul_one_div] at hs
  obtain ⟨e, cen, flag, h1, rfl⟩ := implicitLoop_solved (n := 30)
    (law := fun e => p00 / pc * Real.exp (-xi * e)) (by norm_num) rfl
    (show (1 : ℝ) = p00 / pc * Real.exp (-xi * epv) by rw [hpc]; field_simp) hs
  obtain ⟨f1, f2⟩ := implicitFinish_p h
  refine ⟨_, _, _, e, cen, flag, fun _ => rfl, fun t => ?_, sideOf beta (p / pc), h1, by rw [f1]; ring, f2⟩
  have h2 : HasDerivAt (fun t : ℝ => -xi * t) (-xi) t := by
    exact ((hasDerivAt_id t).const_mul (-xi)).congr_deriv (mul_one _)
  exact (h2.exp.const_mul (p00 / pc)).congr_deriv (by ring)

/-- **C79** Modified Cam-Clay with implicit exponential hardening: the pressure in the particle files is the result of
that iteration, started at the trial state. -/
theorem C79_camClay_implicit {cabs} {svd : Matrix (Fin d) (Fin d) ℝ → Svd d} {m : Material} (ok : MatOk m d)
    (cam : CamOk m) (hm : m.plastic = .mcc) (hh : m.hardening = .expoImpl) (hM : 0 ≤ m.M) (dt : ℝ)
    (q : Particle d ℝ) (exit : Bool) (hs : IsSvd q.F (svd q.F)) {out : PState d}
    (h : plasticity cabs svd m dt q exit = some out) {P Q pc : ℝ} (hPd : P = trialP m (svd q.F))
    (hQd : Q = trialQ m (svd q.F)) (hpc : pc = m.p0 * Real.exp (-m.xi * q.epsPlVol))
    (hout : OutsideEllipse m.M pc m.beta P Q) :
    ∃ law slope side e centre flag, (∀ t, law t = m.p0 / pc * Real.exp (-m.xi * t)) ∧
      (∀ t, HasDerivAt law (slope t) t) ∧ SideOf m.beta (P / pc) side ∧
      ImplSolved law m.M m.beta (m.mu / pc) ((m.lam + 2 * m.mu / d) / pc) (P / pc) (Q / pc) q.epsPlVol cabs slope
        (fun _ => false) 30 side e centre flag ∧
      newP out = pc * (if centre then pressureAt q.epsPlVol ((m.lam + 2 * m.mu / d) / pc) (P / pc) e
        else clipP (law e) m.beta (pressureAt q.epsPlVol ((m.lam + 2 * m.mu / d) / pc) (P / pc) e)) ∧
      out.exit = (exit || flag) := by
  obtain ⟨hP, hQ⟩ := trial_eq ok hs
  rw [← hPd] at hP
  rw [← hQd] at hQ
  obtain ⟨st, h1, rfl⟩ := plasticity_some.mp h
  simp only [plastModel, hm] at h1
  obtain ⟨pc?, r, hr, h1⟩ := plastMCC_shape h1
  rw [← hP, ← hQ] at hr
  simp only [newP, newTau_hencky ok.hel]
  have hout' : OutsideEllipse m.M (hardeningPc m d q.epsPlVol) m.beta P Q := by
    unfold hardeningPc; rw [hh]; simp only; rw [← hpc]; exact hout
  rcases mccReturn_spec cam ok.hK hM hr with ⟨-, d2, -⟩ | ⟨d1, d2⟩
  · exact absurd hout' d2
  rcases h1 with ⟨h1, -⟩ | ⟨-, b, qs, e, muI, hv, rfl⟩
  · rw [d1] at h1; simp at h1
  simp only [hm, reduceCtorEq, if_false, Option.some.injEq, Prod.mk.injEq] at hv
  obtain ⟨rfl, rfl, rfl⟩ := hv
  have hq0 : 0 ≤ r.q := by obtain ⟨-, pc, -, ⟨a, -⟩, -⟩ := d2; exact a
  simp only [mccDone]
  rw [(saved_mcc ok hs.orthU (svd q.F).hencky hq0 (p := r.p)).1]
  unfold mccReturn at hr
  simp only [hh, Option.bind_eq_bind, Option.bind_eq_some_iff, Option.some.injEq, Prod.mk.injEq] at hr
  obtain ⟨w, hw, -, rfl⟩ := hr
  exact C79_implicitExponential cam.p0 hpc hw hout

/-- With the true derivative of a law, the derivative in a step of the solver is that of `yieldAt` itself. -/
theorem C79_newton_step {law slope : ℝ → ℝ} {M beta mu K pT qT eT e S : ℝ} (hl : HasDerivAt law (slope e) e)
    (hK : K ≠ 0) (h0 : deriv (fun p => camYield M (law e) beta p 0) (pressureAt eT K pT e) ≠ 0)
    (h1 : 1 + 2 * mu * multAt law M beta K pT eT e ≠ 0)
    (h : HasDerivAt (yieldAt (fun t => law e + slope e * (t - e)) M beta mu K pT qT eT) S e) :
    HasDerivAt (yieldAt law M beta mu K pT qT eT) S e := by
  rw [(camYield_dp M (law e) beta _ 0).deriv] at h0
  have hden : 2 * K * (M * M) * pressureAt eT K pT e + M * M * (beta - 1) * K * law e ≠ 0 := by
    have := mul_ne_zero hK h0
    convert this using 1; ring
  have hlin : HasDerivAt (fun t => law e + slope e * (t - e)) (slope e) e := by
    have h := (((hasDerivAt_id e).sub_const e).const_mul (slope e)).const_add (law e)
    exact h.congr_deriv (mul_one _)
  rw [multAt_eq, show ∀ z : ℝ, 1 + 2 * mu * z = 1 + 2 * mu * 1 * z from fun z => by ring] at h1
  have a := yieldAt_deriv (M := M) (beta := beta) (mu := mu) (K := K) (pT := pT) (qT := qT) (eT := eT)
    (L := law) rfl hl rfl hden rfl rfl h1 rfl
  have b := yieldAt_deriv (M := M) (beta := beta) (mu := mu) (K := K) (pT := pT) (qT := qT) (eT := eT)
    (L := fun t => law e + slope e * (t - e)) (c := law e) (by simp) hlin rfl hden rfl rfl h1 rfl
  rw [h.unique b]
  exact a

/-- **C79** A root of `yieldAt` solves the equations of associated flow for a shear stiffness `mu`. -/
theorem C79_implicit_root {law : ℝ → ℝ} {M beta mu K pT qT eT e : ℝ} (hK : K ≠ 0)
    (h0 : deriv (fun p => camYield M (law e) beta p 0) (pressureAt eT K pT e) ≠ 0)
    (h1 : 1 + 2 * mu * multAt law M beta K pT eT e ≠ 0) (hz : yieldAt law M beta mu K pT qT eT e = 0) :
    flowEqs M (law e) beta K mu pT qT
      ![pressureAt eT K pT e, shearAt law M beta mu K pT qT eT e, multAt law M beta K pT eT e] = 0 := by
  rw [flowEqs_eq]
  have hm : K * multAt law M beta K pT eT e * (M * M * (beta * law e + 2 * pressureAt eT K pT e - law e)) =
      pT - pressureAt eT K pT e := by
    unfold multAt
    rw [(camYield_dp M (law e) beta _ 0).deriv] at h0 ⊢
    generalize M * M * (beta * law e + 2 * pressureAt eT K pT e - law e) = D at h0 ⊢
    field_simp
  have hq : shearAt law M beta mu K pT qT eT e * (1 + 2 * mu * multAt law M beta K pT eT e) = qT := by
    unfold shearAt; field_simp
  unfold yieldAt camYield at hz
  ext i
  fin_cases i
  · simp [hm]
  · simp; linear_combination -hq
  · simp; linear_combination hz

/-- **C79** The shear stiffness in these equations is `2 qPrefac² mu` (`C79_normal`), not `mu`: at such a root the
equations hold only if the two agree, that is for `qPrefac = 1/√2`, or without shear or plastic flow. -/
theorem C79_implicit_stiffness_false {M pc beta K mu f pT qT p q g g' : ℝ} (hK : K ≠ 0)
    (h0 : deriv (fun p => camYield M pc beta p q) p ≠ 0) (hq : q ≠ 0) (hg : g ≠ 0) (hf : f ≠ mu)
    (h : flowEqs M pc beta K mu pT qT ![p, q, g] = 0) : flowEqs M pc beta K f pT qT ![p, q, g'] ≠ 0 := by
  intro h'
  rw [(camYield_dp M pc beta p q).deriv] at h0
  rw [flowEqs_eq] at h h'
  have a0 := congrFun h 0
  have a1 := congrFun h 1
  have b0 := congrFun h' 0
  have b1 := congrFun h' 1
  simp at a0 a1 b0 b1
  have e : g = g' := by
    have : K * (M * M * (beta * pc + 2 * p - pc)) * (g - g') = 0 := by linear_combination b0 - a0
    rcases mul_eq_zero.mp this with h | h
    · exact absurd h (mul_ne_zero hK h0)
    · linarith
  subst e
  have : (f - mu) * (g * (2 * q)) = 0 := by linear_combination a1 - b1
  rcases mul_eq_zero.mp this with h | h
  · exact hf (by linarith)
  · exact mul_ne_zero hg (mul_ne_zero two_ne_zero hq) h

/-- Trial stress (6/5, 8/5), returned to (3/5, 4/5) with shear stiffness 1: not a solution for shear stiffness 2. -/
example (g' : ℝ) : flowEqs 1 1 1 1 2 (6 / 5) (8 / 5) ![3 / 5, 4 / 5, g'] ≠ 0 := by
  refine C79_implicit_stiffness_false (mu := 1) (g := 1 / 2) one_ne_zero ?_ (by norm_num) (by norm_num) (by norm_num) ?_
  · rw [(camYield_dp _ _ _ _ _).deriv]; norm_num
  · rw [flowEqs_eq]
    ext i; fin_cases i <;> (simp; norm_num)

/-- **C79**, implicit mapping with the sinh law. Missing: the slope used for the law is its derivative minus half the
lower bound where the law is above the bound, and half the bound where it is constant, so the step is not a Newton
step for `yieldAt` (`C79_sinh_false`). An unfinished search for the root is reported, except at the lower bound. -/
theorem C79_implicitSinh_partial {p q M p00 beta mu K xi epv pc : ℝ} {exit : Bool} (hK : 0 < K)
    (hpc : pc = max 0.01 (K * Real.sinh (Real.arsinh (p00 / K) - xi * epv))) {r : Rma}
    (h : mccRmaImplicitSinhOnevar p q exit M p00 beta mu K xi epv = some r)
    (hout : OutsideEllipse M pc beta p q) :
    ∃ law slope late side e centre flag,
      (∀ t, law t = max 0.01 (K * Real.sinh (Real.arsinh (p00 / K) - xi * t)) / pc) ∧
      (∀ t, 0.01 < K * Real.sinh (Real.arsinh (p00 / K) - xi * t) →
        HasDerivAt law (slope t + 0.01 / pc / 2) t ∧ late (law t) = true) ∧
      (∀ t, K * Real.sinh (Real.arsinh (p00 / K) - xi * t) ≤ 0.01 → slope t = 0.01 / pc / 2 ∧ late (law t) = false) ∧
      SideOf beta (p / pc) side ∧
      ImplSolved law M beta (mu / pc) (K / pc) (p / pc) (q / pc) epv abs slope late 40 side e centre flag ∧
      r.p = pc * (if centre then pressureAt epv (K / pc) (p / pc) e
        else clipP (law e) beta (pressureAt epv (K / pc) (p / pc) e)) ∧
      r.exit = (exit || flag) := by
  unfold mccRmaImplicitSinhOnevar at h
  have hpc' : max 0.01 (K * Real.sinh (-xi * epv + Real.arsinh (p00 / K))) = pc := by
    rw [hpc]; congr 3; ring
  have hT : 0 < pc := by rw [hpc]; exact lt_of_lt_of_le (by norm_num) (le_max_left _ _)
  rw [fdiv_of_ne hK.ne'] at h
  simp only [Option.bind_eq_bind, Option.bind_some] at h
  rw [hpc'] at h
  have hy : ¬ (M * M * (p * p + (beta - 1) * pc * p - beta * pc * pc) + 1 * q * q ≤ 0) := by
    unfold OutsideEllipse at hout
    rw [not_le]; linarith
  rw [if_neg hy, fdiv_of_ne hT.ne'] at h
  simp only [Option.bind_some, Option.bind_eq_some_iff] at h
  obtain ⟨s, hs, h⟩ := h
  simp only [mul_one_div] at hs
  have hlaw : ∀ t, sinhLaw (K / pc) (p00 / pc) xi (0.01 / pc) t =
      max 0.01 (K * Real.sinh (Real.arsinh (p00 / K) - xi * t)) / pc := by
    intro t
    have := sinhLaw_scale (K := K) (p00 := p00) (xi := xi) (p0min := 0.01) (e := t) (one_div_pos.mpr hT)
    simp only [mul_one_div] at this
    rw [this, sinhLaw, show -xi * t + Real.arsinh (p00 / K) = Real.arsinh (p00 / K) - xi * t by ring]
  have hq : p00 / pc / (K / pc) = p00 / K := by field_simp
  have harg : ∀ t, -xi * t + Real.arsinh (p00 / pc / (K / pc)) = Real.arsinh (p00 / K) - xi * t := by
    intro t; rw [hq]; ring
  obtain ⟨e, cen, flag, h1, rfl⟩ := implicitLoop_solved (n := 40)
    (law := sinhLaw (K / pc) (p00 / pc) xi (0.01 / pc)) (by norm_num) rfl
    (by rw [hlaw, ← hpc, div_self hT.ne']) hs
  obtain ⟨f1, f2⟩ := implicitFinish_p h
  refine ⟨_, _, _, _, e, cen, flag, hlaw, fun t ht => ⟨?_, ?_⟩, fun t ht => ⟨?_, ?_⟩, sideOf beta (p / pc), h1,
    by rw [f1]; ring, f2⟩
  · have hslope : sinhLawDeriv (K / pc) (p00 / pc) xi (0.01 / pc) t + 0.01 / pc / 2 =
        -xi * (K / pc) * Real.cosh (Real.arsinh (p00 / K) - xi * t) := by
      unfold sinhLawDeriv
      simp only [harg]
      rw [if_pos (by rw [gt_iff_lt, div_mul_eq_mul_div]; exact div_lt_div_of_pos_right ht hT)]
      ring
    rw [hslope]
    have ha : HasDerivAt (fun t => Real.arsinh (p00 / K) - xi * t) (-xi) t :=
      (((hasDerivAt_id t).const_mul xi).const_sub _).congr_deriv (by ring)
    have hd : HasDerivAt (fun t => K * Real.sinh (Real.arsinh (p00 / K) - xi * t) / pc)
        (-xi * (K / pc) * Real.cosh (Real.arsinh (p00 / K) - xi * t)) t :=
      ((ha.sinh.const_mul K).div_const pc).congr_deriv (by ring)
    refine hd.congr_of_eventuallyEq ?_
    have hc : Continuous fun t => K * Real.sinh (Real.arsinh (p00 / K) - xi * t) := by
      have : Continuous fun t => Real.sinh (Real.arsinh (p00 / K) - xi * t) :=
        Real.continuous_sinh.comp (by fun_prop)
      exact continuous_const.mul this
    filter_upwards [hc.continuousAt.eventually (lt_mem_nhds ht)] with t' ht'
    rw [hlaw, max_eq_right ht'.le]
  · rw [hlaw, max_eq_right ht.le, decide_eq_true_iff]
    exact div_lt_div_of_pos_right ht hT
  · unfold sinhLawDeriv
    simp only [harg]
    rw [if_neg (by rw [gt_iff_lt, not_lt, div_mul_eq_mul_div]; exact div_le_div_of_nonneg_right ht hT.le)]
    ring
  · rw [hlaw, max_eq_left ht, decide_eq_false_iff_not, gt_iff_lt]; exact lt_irrefl _

/-- **C79** fails for the sinh law: where the law is smooth, the slope used is never its derivative. -/
theorem C79_sinh_false {K p00 xi pmin : ℝ} (hpm : 0 < pmin) (e : ℝ)
    (he : K * Real.sinh (Real.arsinh (p00 / K) - xi * e) ≠ pmin) :
    sinhLaw K p00 xi pmin = (fun e => max pmin (K * Real.sinh (Real.arsinh (p00 / K) - xi * e))) ∧
    ¬ HasDerivAt (sinhLaw K p00 xi pmin) (sinhLawDeriv K p00 xi pmin e) e := by
  refine ⟨by funext t; unfold sinhLaw; rw [show -xi * t + Real.arsinh (p00 / K) =
    Real.arsinh (p00 / K) - xi * t by ring], fun h => ?_⟩
  have harg : ∀ t, -xi * t + Real.arsinh (p00 / K) = Real.arsinh (p00 / K) - xi * t := by intro t; ring
  have hc : Continuous fun t => K * Real.sinh (Real.arsinh (p00 / K) - xi * t) := by
    have : Continuous fun t => Real.sinh (Real.arsinh (p00 / K) - xi * t) :=
      Real.continuous_sinh.comp (by fun_prop)
    exact continuous_const.mul this
  rcases lt_or_gt_of_ne he with he | he
  · have h2 : HasDerivAt (sinhLaw K p00 xi pmin) 0 e := by
      refine (hasDerivAt_const e pmin).congr_of_eventuallyEq ?_
      filter_upwards [hc.continuousAt.eventually (gt_mem_nhds he)] with t ht
      simp only [sinhLaw, harg]
      exact max_eq_left ht.le
    have h3 := h.unique h2
    unfold sinhLawDeriv at h3
    simp only [harg] at h3
    rw [if_neg (not_lt.mpr he.le)] at h3
    linarith
  · have ha : HasDerivAt (fun t => Real.arsinh (p00 / K) - xi * t) (-xi) e :=
      (((hasDerivAt_id e).const_mul xi).const_sub _).congr_deriv (by ring)
    have h2 : HasDerivAt (sinhLaw K p00 xi pmin) (-xi * K * Real.cosh (Real.arsinh (p00 / K) - xi * e)) e := by
      refine ((ha.sinh.const_mul K).congr_of_eventuallyEq ?_).congr_deriv (by ring)
      filter_upwards [hc.continuousAt.eventually (lt_mem_nhds he)] with t ht
      simp only [sinhLaw, harg]
      exact max_eq_right ht.le
    have h3 := h.unique h2
    unfold sinhLawDeriv at h3
    simp only [harg] at h3
    rw [if_pos he] at h3
    linarith

/-- At the centre of the ellipse the implicit mapping ends at once: pressure 1/4, shear stress 3/4. -/
example : ∃ r law slope side e centre flag,
    mccRmaImplicitExponentialOnevar abs (1 / 4) (3 / 4) false (1 / 2) 1 (1 / 2) 1 1 0 0 = some r ∧
    ImplSolved law (1 / 2) (1 / 2) (1 / 1) (1 / 1) (1 / 4 / 1) (3 / 4 / 1) 0 abs slope (fun _ => false) 30 side e centre flag ∧
    r.p = 1 / 4 ∧ r.exit = flag := by
  obtain ⟨law, slope, side, e, cen, flag, -, -, -, h1, -, h2⟩ := C79_implicitExponential (pc := 1) one_pos (by simp)
    Ex.centre (by norm_num [OutsideEllipse])
  exact ⟨_, law, slope, side, e, cen, flag, Ex.centre, h1, rfl, by simpa using h2⟩

/-- The same state with the sinh law. -/
example : ∃ r, mccRmaImplicitSinhOnevar (1 / 4) (3 / 4) false (1 / 2) 1 (1 / 2) 1 1 0 0 = some r ∧ r.p = 1 / 4 ∧
    ∃ law slope late side e centre flag,
      ImplSolved law (1 / 2) (1 / 2) (1 / 1) (1 / 1) (1 / 4 / 1) (3 / 4 / 1) 0 abs slope late 40 side e centre flag := by
  have hs : Real.sqrt (9 / 16) = 3 / 4 := by
    rw [show (9 / 16 : ℝ) = (3 / 4) ^ 2 by norm_num, Real.sqrt_sq (by norm_num)]
  have hl : ∀ law dlaw le mu K qT epvT right, implicitLoop abs law dlaw le (1 / 2) (1 / 2) mu K (1 / 4) qT epvT 40 0
      (1 / 4) 1 epvT right false = some (true, 1 / 4, 1, false) := by
    intro law dlaw le mu K qT epvT right
    rw [implicitLoop, if_pos (by norm_num)]
  have h1 : max 0.01 ((1 : ℝ) * Real.sinh (-0 * 0 + Real.arsinh (1 / 1))) = 1 := by
    rw [neg_zero, zero_mul, zero_add, Real.sinh_arsinh]; norm_num
  have h : mccRmaImplicitSinhOnevar (1 / 4) (3 / 4) false (1 / 2) 1 (1 / 2) 1 1 0 0 =
      some ⟨1 / 4, 3 / 8, false, true⟩ := by
    rw [mccRmaImplicitSinhOnevar]
    have h2 : fdiv 1 1 = some 1 := by norm_num [fdiv]
    simp only [h1, h2, Option.bind_eq_bind, Option.bind_some, mul_one]
    change (if _ then _ else (implicitLoop abs _ _ _ _ _ _ _ _ _ _ 40 0 _ _ _ _ _).bind _) = _
    simp only [hl]
    norm_num [implicitFinish, fsqrt, hs]
  obtain ⟨law, slope, late, side, e, cen, flag, -, -, -, -, h2, -⟩ := C79_implicitSinh_partial (pc := 1) one_pos
    (by rw [mul_zero, sub_zero, Real.sinh_arsinh]; norm_num) h (by norm_num [OutsideEllipse])
  exact ⟨_, h, rfl, law, slope, late, side, e, cen, flag, h2⟩

/-- The sinh law with stiffness 1, reference pressure 1 and bound 1/100 at strain zero. -/
example : ¬ HasDerivAt (sinhLaw 1 1 1 0.01) (sinhLawDeriv 1 1 1 0.01 0) 0 :=
  (C79_sinh_false (by norm_num) 0 (by norm_num [Real.sinh_arsinh])).2

end Verif.Props
