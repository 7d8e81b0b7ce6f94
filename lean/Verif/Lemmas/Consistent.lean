import Verif.Lemmas.Plastic

set_option linter.unusedSectionVars false
set_option linter.unusedSimpArgs false
set_option linter.unusedVariables false

/-! # The plastic models keep deformation gradient and strain consistent -/

namespace Verif
open Matrix

variable {d : ℕ} {cabs : ℝ → ℝ} {m : Material} {dt : ℝ} {s : Svd d} {t : Trial d} {st out : PState d}

/-- The stored deformation gradient is the one belonging to the strain, or both are those of `st0`. -/
def Cons (s : Svd d) (st0 st : PState d) : Prop :=
  st.q.F = s.expF st.hencky ∨ st.q.F = st0.q.F ∧ st.hencky = st0.hencky

lemma cons_vm : Cons s st (plastVM m dt s t st) := by
  simp only [plastVM]; split_ifs
  · exact .inl rfl
  · exact .inr ⟨rfl, rfl⟩

lemma cons_dp : Cons s st (plastDP m dt s t st) := by
  simp only [plastDP]; split_ifs
  · exact .inl rfl
  · exact .inl rfl
  · exact .inr ⟨rfl, rfl⟩

lemma cons_dpSoft : Cons s st (plastDPSoft m dt s t st) := by
  simp only [plastDPSoft]
  generalize (if m.usePradhana = true then -m.K d * st.q.epsPlVolPradhana else 0) = pShift
  split_ifs
  all_goals first | exact .inl rfl | exact .inr ⟨rfl, rfl⟩

lemma cons_dpMui : Cons s st (plastDPMui m dt s t st) := by
  simp only [plastDPMui]
  generalize (if m.usePradhana = true then -m.K d * st.q.epsPlVolPradhana else 0) = pShift
  split_ifs
  all_goals first | exact .inl rfl | exact .inr ⟨rfl, rfl⟩

/-- The state in which the viscous von Mises model resets the deformation (plasticity.cpp:188-195). -/
def Capped (m : Material) (t : Trial d) (q : Particle d ℝ) : Prop :=
  -m.K d * t.trace < m.pMin * Real.exp (-m.xi * q.epsPlVol)

lemma cons_vmVisc (hc : ¬ Capped m t st.q) (ho : plastVMVisc m dt s t st = some out) :
    Cons s st out := by
  unfold Capped at hc
  simp only [plastVMVisc] at ho
  rw [if_neg hc] at ho
  split_ifs at ho
  · simp only [Option.bind_eq_bind, Option.bind_eq_some_iff, Option.some.injEq] at ho
    obtain ⟨r, -, rfl⟩ := ho
    exact .inl rfl
  · obtain rfl := Option.some.inj ho
    exact .inr ⟨rfl, rfl⟩

lemma cons_dpVisc (ho : plastDPVisc m dt s t st = some out) : Cons s st out := by
  simp only [plastDPVisc] at ho
  generalize (if m.usePradhana = true then -m.K d * st.q.epsPlVolPradhana else 0) = pShift at ho
  by_cases h2 : -m.K d * t.trace + pShift > -m.qCohesion / m.M ∧
      m.eMu * t.norm > m.M * (-m.K d * t.trace + pShift) + m.qCohesion
  · simp only [if_pos h2, Option.bind_eq_bind, Option.bind_eq_some_iff, Option.some.injEq] at ho
    obtain ⟨r, -, rfl⟩ := ho
    exact .inl rfl
  · rw [if_neg h2] at ho
    obtain rfl := Option.some.inj ho
    split_ifs
    all_goals first | exact .inl rfl | exact .inr ⟨rfl, rfl⟩

lemma cons_mcc (ho : plastMCC cabs m dt s t st = some out) : Cons s st out := by
  simp only [plastMCC, Option.bind_eq_bind, Option.bind_eq_some_iff] at ho
  obtain ⟨r, -, ho⟩ := ho
  by_cases h1 : r.2.did = true
  · simp only [if_pos h1] at ho
    by_cases h2 : m.plastic = .mccVisc
    · simp only [if_pos h2] at ho
      cases hm : m.useMibf <;>
        simp only [hm, if_true, if_false, Bool.false_eq_true, Option.bind_some, Option.bind_eq_some_iff,
          Option.some.injEq] at ho
      · obtain ⟨v, -, rfl⟩ := ho
        exact .inl rfl
      · obtain ⟨v, -, u, -, rfl⟩ := ho
        exact .inl rfl
    · simp only [if_neg h2] at ho
      cases hm : m.useMibf <;>
        simp only [hm, if_true, if_false, Bool.false_eq_true, Option.bind_some, Option.bind_eq_some_iff,
          Option.some.injEq] at ho
      · obtain rfl := ho
        exact .inl rfl
      · obtain ⟨v, -, rfl⟩ := ho
        exact .inl rfl
  · simp only [if_neg h1, Option.some.injEq] at ho
    obtain rfl := ho
    split_ifs <;> exact .inr ⟨rfl, rfl⟩

lemma cons_mccMui (ho : plastMCCMui cabs m dt s t st = some out) : Cons s st out := by
  simp only [plastMCCMui, Option.bind_eq_bind, Option.bind_eq_some_iff] at ho
  obtain ⟨r, -, ho⟩ := ho
  by_cases h1 : r.2.did = true
  · simp only [if_pos h1] at ho
    by_cases h2 : m.eMu * t.norm > r.2.q + m.stressTol
    · simp only [if_pos h2] at ho
      cases hh : m.hardening <;> simp only [hh, Option.bind_some, Option.bind_assoc,
        Option.bind_eq_some_iff, Option.some.injEq] at ho
      all_goals first
        | (obtain ⟨_, -, _, -, _, -, _, -, rfl⟩ := ho; exact .inl rfl)
    · simp only [if_neg h2, Option.bind_some, Option.some.injEq] at ho
      obtain rfl := ho
      exact .inl rfl
  · simp only [if_neg h1, Option.some.injEq] at ho
    obtain rfl := ho
    exact .inr ⟨rfl, rfl⟩

lemma cons_plastModel (hc : m.plastic = .vmVisc → ¬ Capped m t st.q)
    (ho : plastModel cabs m dt s t st = some out) : Cons s st out := by
  unfold plastModel at ho
  cases hp : m.plastic <;> simp only [hp, Option.some.injEq, Option.ite_none_left_eq_some] at ho
  · obtain ⟨-, rfl⟩ := ho; exact .inr ⟨rfl, rfl⟩
  all_goals first
    | exact cons_vmVisc (hc hp) ho
    | exact cons_dpVisc ho
    | exact cons_mccMui ho
    | exact cons_mcc ho
    | (subst ho; exact cons_vm)
    | (subst ho; exact cons_dp)
    | (subst ho; exact cons_dpSoft)
    | (subst ho; exact cons_dpMui)

end Verif
