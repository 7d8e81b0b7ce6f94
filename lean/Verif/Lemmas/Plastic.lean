import Verif.Lemmas.Hencky
import Mathlib.Analysis.SpecialFunctions.Exp

set_option linter.unusedSectionVars false
set_option linter.unusedSimpArgs false

/-! # Lemmas on the plastic update -/

namespace Verif
open Matrix

variable {d : ℕ}

/-- Admissible elastic constants. -/
structure MatOk (m : Material) (d : ℕ) : Prop where
  hd : 0 < d
  hK : 0 < m.K d
  hmu : 0 < m.mu
  hq : 0 < m.qPrefac
  hel : m.elastic = .hencky

/-- The usual conditions on Young's modulus and Poisson's ratio suffice. -/
lemma MatOk.of_elastic {m : Material} (hd : d = 2 ∨ d = 3) (hE : 0 < m.E) (h1 : -1 < m.nu) (h2 : m.nu < 1 / 2)
    (hq : 0 < m.qPrefac) (hel : m.elastic = .hencky) : MatOk m d := by
  have a : 0 < 1 + m.nu := by linarith
  have b : 0 < 1 - 2 * m.nu := by linarith
  have hmu : 0 < m.mu := by unfold Material.mu; positivity
  refine ⟨by omega, ?_, hmu, hq, hel⟩
  unfold Material.K Material.lam Material.mu
  have a' := a.ne'
  have b' := b.ne'
  have b'' : 1 - m.nu * 2 ≠ 0 := by rw [mul_comm]; exact b'
  rcases hd with rfl | rfl
  · have : m.nu * m.E / ((1 + m.nu) * (1 - 2 * m.nu)) + 2 * (m.E / (2 * (1 + m.nu))) / ((2 : ℕ) : ℝ) =
        m.E / (2 * (1 + m.nu) * (1 - 2 * m.nu)) := by
      push_cast; field_simp; ring
    rw [this]; positivity
  · have : m.nu * m.E / ((1 + m.nu) * (1 - 2 * m.nu)) + 2 * (m.E / (2 * (1 + m.nu))) / ((3 : ℕ) : ℝ) =
        m.E / (3 * (1 - 2 * m.nu)) := by
      push_cast; field_simp; ring
    rw [this]; positivity

section
variable {m : Material} (ok : MatOk m d)
include ok

lemma MatOk.eMu_pos : 0 < m.eMu := by
  have := ok.hmu; have := ok.hq; unfold Material.eMu; positivity
lemma MatOk.fMu_pos : 0 < m.fMu := by
  have := ok.hmu; have := ok.hq; unfold Material.fMu; positivity
lemma MatOk.dPre_pos : 0 < m.dPre := by
  have := ok.hq; unfold Material.dPre; positivity
lemma MatOk.dne : (d : ℝ) ≠ 0 := by have := ok.hd; positivity
/-- `gamma` and `|dev|`: `fMu = eMu / dPre`. -/
lemma MatOk.fMu_eq : m.fMu = m.eMu * (1 / m.dPre) := by
  have := ok.hq.ne'
  unfold Material.fMu Material.eMu Material.dPre
  field_simp

/-- Saved invariants for strains `a * dir + b`. -/
lemma saved_ab {U : Matrix (Fin d) (Fin d) ℝ} (hU : U * Uᵀ = 1) (h : Fin d → ℝ) (a b : ℝ) {h' : Fin d → ℝ}
    (hh : ∀ i, h' i = a * (mkTrial h).dir i + b) :
    savedP (henckyTau m.lam m.mu U h') = -m.K d * (d * b) ∧
    savedQ m.qPrefac (henckyTau m.lam m.mu U h') = m.eMu * (|a| * vnorm (mkTrial h).dir) := by
  obtain rfl : h' = fun i => a * (mkTrial h).dir i + b := funext hh
  have := saved_hencky (qp := m.qPrefac) (lam := m.lam) ok.hd ok.hmu.le hU (fun i => a * (mkTrial h).dir i + b)
  rw [sum_ab ok.hd, devOf_ab ok.hd, vnorm_smul] at this
  exact this

/-- Saved invariants of the trial state. -/
lemma saved_trial {U : Matrix (Fin d) (Fin d) ℝ} (hU : U * Uᵀ = 1) (h : Fin d → ℝ) :
    savedP (henckyTau m.lam m.mu U h) = -m.K d * (mkTrial h).trace ∧
    savedQ m.qPrefac (henckyTau m.lam m.mu U h) = m.eMu * (mkTrial h).norm :=
  saved_hencky (qp := m.qPrefac) (lam := m.lam) ok.hd ok.hmu.le hU h

end

lemma saved_dir_pos {h : Fin d → ℝ} (hp : 0 < (mkTrial h).norm) (a : ℝ) :
    |a| * vnorm (mkTrial h).dir = |a| := by rw [mkTrial_dir_norm hp, mul_one]

lemma saved_dir_le (h : Fin d → ℝ) (a : ℝ) : |a| * vnorm (mkTrial h).dir ≤ |a| :=
  mul_le_of_le_one_right (abs_nonneg a) (mkTrial_dir_norm_le h)

lemma det_expF (s : Svd d) (h : Fin d → ℝ) :
    (s.expF h).det = s.U.det * Real.exp (∑ i, h i) * s.V.det := by
  rw [Svd.expF, Matrix.det_mul, Matrix.det_mul, Matrix.det_transpose, Matrix.det_diagonal, Real.exp_sum]

lemma hencky_of_big {s : Svd d} (h : ∀ i, 1e-4 ≤ s.sig i) (i : Fin d) : Real.exp (s.hencky i) = s.sig i := by
  have h0 : 0 < s.sig i := lt_of_lt_of_le (by norm_num) (h i)
  rw [Svd.hencky, abs_of_pos h0, max_eq_left (h i), Real.exp_log h0]

lemma expF_hencky {F : Matrix (Fin d) (Fin d) ℝ} {s : Svd d} (hs : IsSvd F s) (h : ∀ i, 1e-4 ≤ s.sig i) :
    s.expF s.hencky = F := by
  rw [Svd.expF, hs.eq]
  congr 3
  funext i
  exact hencky_of_big h i

lemma plasticity_some {cabs svd m dt} {q : Particle d ℝ} {exit : Bool} {out : PState d} :
    plasticity cabs svd m dt q exit = some out ↔
    ∃ st, plastModel cabs m dt (svd q.F) (mkTrial (svd q.F).hencky)
        ⟨q, (svd q.F).hencky, 0, exit⟩ = some st ∧
      out = { st with q := { st.q with tau := newTau m (svd q.F) st.hencky st.q.F } } := by
  simp only [plasticity, Option.bind_eq_bind, Option.bind_eq_some_iff, Option.some.injEq]
  constructor
  · rintro ⟨st, h, rfl⟩; exact ⟨st, h, rfl⟩
  · rintro ⟨st, h, rfl⟩; exact ⟨st, h, rfl⟩

/-- Without plasticity the state is kept; the neo-Hookean law needs a positive determinant. -/
lemma plastModel_noPlasticity {cabs m dt} {s : Svd d} {t : Trial d} {st out : PState d} (hm : m.plastic = .noPlasticity) :
    plastModel cabs m dt s t st = some out ↔ (m.elastic = .neoHookean → 0 < st.q.F.det) ∧ out = st := by
  simp only [plastModel, hm, Option.ite_none_left_eq_some, not_and, not_le, Option.some.injEq]
  exact and_congr_right fun _ => eq_comm

lemma newTau_hencky {m : Material} (hel : m.elastic = .hencky) (s : Svd d) (h F) :
    newTau m s h F = henckyTau m.lam m.mu s.U h := by
  simp only [newTau, hel]

end Verif
