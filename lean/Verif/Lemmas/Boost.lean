import Verif.Model.Plasticity
import Verif.Model.Run

set_option linter.unusedSectionVars false
set_option linter.unusedSimpArgs false
set_option linter.unusedVariables false

/-!
# The constitutive update neither reads nor writes the velocities
-/

namespace Verif
open Matrix

variable {d : ℕ}

/-- Additions to the velocity of a particle and to its two recorded interpolated velocities. -/
structure Nudge (d : ℕ) where
  v : Fin d → ℝ
  pic : Fin d → ℝ
  flip : Fin d → ℝ

/-- The particle with changed velocities. -/
def nudge (c : Nudge d) (p : Particle d ℝ) : Particle d ℝ :=
  { p with v := p.v + c.v, pic := p.pic + c.pic, flip := p.flip + c.flip }

/-- The state with the particle changed by `c`. -/
def nudgeSt (c : Nudge d) (st : PState d) : PState d := { st with q := nudge c st.q }

lemma plastMCC_nudge (c : Nudge d) (cabs : ℝ → ℝ) (m : Material) (dt : ℝ) (s : Svd d) (t : Trial d) (st : PState d) :
    plastMCC cabs m dt s t (nudgeSt c st) = (plastMCC cabs m dt s t st).map (nudgeSt c) := by
  obtain ⟨⟨x, v, pic, fl, F, Bm, tau, e1, e2, e3, dg, vis, mui⟩, h, n, e⟩ := st
  by_cases hm : m.useMibf = true
  all_goals
    simp only [plastMCC, nudgeSt, nudge, Option.bind_eq_bind, hm, if_true, if_false,
      Bool.false_eq_true]
    cases mccReturn cabs m d true m.M e2 (-m.K d * t.trace) (m.eMu * t.norm) e with
    | none => rfl
    | some r =>
      obtain ⟨pc, r⟩ := r
      simp only [Option.bind_some]
      by_cases hd : r.did = true
      · by_cases hv : m.plastic = .mccVisc
        · simp only [if_pos hd, if_pos hv]
          simp [Option.map_bind, Function.comp_def, nudgeSt, nudge]
        · simp only [if_pos hd, if_neg hv]
          simp [Option.map_bind, Function.comp_def, nudgeSt, nudge]
      · simp only [if_neg hd]
        rfl

lemma plastMCCMui_nudge (c : Nudge d) (cabs : ℝ → ℝ) (m : Material) (dt : ℝ) (s : Svd d) (t : Trial d) (st : PState d) :
    plastMCCMui cabs m dt s t (nudgeSt c st) = (plastMCCMui cabs m dt s t st).map (nudgeSt c) := by
  obtain ⟨⟨x, v, pic, fl, F, Bm, tau, e1, e2, e3, dg, vis, mui⟩, h, n, e⟩ := st
  simp only [plastMCCMui, nudgeSt, nudge, Option.bind_eq_bind]
  cases mccReturn cabs m d false m.mu1 e2 (-m.K d * t.trace) (m.eMu * t.norm) e with
  | none => rfl
  | some r =>
    obtain ⟨pc, r⟩ := r
    simp only [Option.bind_some]
    by_cases hd : r.did = true
    · simp only [if_pos hd]
      by_cases hq : m.eMu * t.norm > r.q + m.stressTol
      · simp only [if_pos hq]
        cases m.hardening <;> simp [Option.map_bind, Function.comp_def, nudgeSt, nudge]
      · simp only [if_neg hq]
        rfl
    · simp only [if_neg hd]
      rfl

lemma plastModel_nudge (c : Nudge d) (cabs : ℝ → ℝ) (m : Material) (dt : ℝ) (s : Svd d) (t : Trial d) (st : PState d) :
    plastModel cabs m dt s t (nudgeSt c st) = (plastModel cabs m dt s t st).map (nudgeSt c) := by
  unfold plastModel
  cases m.plastic <;> simp only
  case noPlasticity =>
    by_cases h : m.elastic = .neoHookean ∧ st.q.F.det ≤ 0
    · rw [if_pos h, if_pos (show m.elastic = .neoHookean ∧ (nudgeSt c st).q.F.det ≤ 0 from h)]; rfl
    · rw [if_neg h, if_neg (show ¬ (m.elastic = .neoHookean ∧ (nudgeSt c st).q.F.det ≤ 0) from h)]; rfl
  case mcc => exact plastMCC_nudge ..
  case mccVisc => exact plastMCC_nudge ..
  case mccMui => exact plastMCCMui_nudge ..
  all_goals obtain ⟨⟨x, v, pic, fl, F, Bm, tau, e1, e2, e3, dg, vis, mui⟩, h, n, e⟩ := st
  case vm =>
    rw [Option.map_some]; congr 1
    simp only [plastVM, nudgeSt, nudge]
    split_ifs <;> rfl
  case dp =>
    rw [Option.map_some]; congr 1
    simp only [plastDP, nudgeSt, nudge]
    split_ifs <;> rfl
  case dpSoft =>
    rw [Option.map_some]; congr 1
    simp only [plastDPSoft, nudgeSt, nudge]
    split_ifs <;> rfl
  case vmVisc =>
    simp only [plastVMVisc, nudgeSt, nudge, Option.bind_eq_bind]
    by_cases h1 : -m.K d * t.trace < m.pMin * Real.exp (-m.xi * e2)
    · refine (if_pos h1).trans (Eq.trans ?_ (congrArg (Option.map (nudgeSt c)) (if_pos h1)).symm)
      rfl
    refine (if_neg h1).trans (Eq.trans ?_ (congrArg (Option.map (nudgeSt c)) (if_neg h1)).symm)
    by_cases h2 : m.eMu * t.norm > m.qMin + (m.qMax - m.qMin) * Real.exp (-m.xi * e1)
    · refine (if_pos h2).trans (Eq.trans ?_ (congrArg (Option.map (nudgeSt c)) (if_pos h2)).symm)
      simp only [Option.map_bind, Function.comp_def, nudgeSt, nudge, Option.map_some]
    · refine (if_neg h2).trans (Eq.trans ?_ (congrArg (Option.map (nudgeSt c)) (if_neg h2)).symm)
      rfl
  case dpVisc =>
    simp only [plastDPVisc, nudgeSt, nudge]
    split_ifs <;> simp [Option.map_bind, Function.comp_def, nudgeSt, nudge]
  case dpMui =>
    rw [Option.map_some]; congr 1
    simp only [plastDPMui, nudgeSt, nudge]
    split_ifs <;> rfl

lemma plasticity_nudge (c : Nudge d) (cabs : ℝ → ℝ) (svd : Matrix (Fin d) (Fin d) ℝ → Svd d) (m : Material)
    (dt : ℝ) (q : Particle d ℝ) (e : Bool) :
    plasticity cabs svd m dt (nudge c q) e = (plasticity cabs svd m dt q e).map (nudgeSt c) := by
  unfold plasticity
  have := plastModel_nudge c cabs m dt (svd q.F) (mkTrial (svd q.F).hencky) ⟨q, (svd q.F).hencky, 0, e⟩
  simp only [Option.bind_eq_bind]
  show Option.bind (plastModel cabs m dt (svd q.F) (mkTrial (svd q.F).hencky) (nudgeSt c ⟨q, (svd q.F).hencky, 0, e⟩)) _ = _
  rw [this]
  cases plastModel cabs m dt (svd q.F) (mkTrial (svd q.F).hencky) ⟨q, (svd q.F).hencky, 0, e⟩ <;> rfl


lemma plasticUpdate_nudge (R : Setup d) (c : Nudge d) (dt : ℝ) (q : Particle d ℝ) :
    plasticUpdate R dt (nudge c q) = (plasticUpdate R dt q).map fun r => (nudge c r.1, r.2) := by
  unfold plasticUpdate
  rw [plasticity_nudge, Option.map_map, Option.map_map]
  rfl

end Verif
