import Verif.Lemmas.Plastic

set_option linter.unusedSectionVars false
set_option linter.unusedSimpArgs false
set_option linter.unusedVariables false

/-! # The plastic models are isotropic functions -/

namespace Verif
open Matrix

variable {d : ℕ}

/-- Two results that agree in all scalars and whose strain and deformation are the same functions of the
singular values. -/
structure Iso (s₁ s₂ : Svd d) (a b : PState d) : Prop where
  scal : b.q = { a.q with F := b.q.F, tau := b.q.tau }
  count : b.count = a.count
  exit : b.exit = a.exit
  fn : ∃ g k : ℝ → ℝ, (∀ i, a.hencky i = g (s₁.sig i)) ∧ (∀ i, b.hencky i = g (s₂.sig i)) ∧
    a.q.F = s₁.U * diagonal (fun i => k (s₁.sig i)) * s₁.Vᵀ ∧
    b.q.F = s₂.U * diagonal (fun i => k (s₂.sig i)) * s₂.Vᵀ

/-- Both undefined or both defined and related. -/
def OptIso (s₁ s₂ : Svd d) (x y : Option (PState d)) : Prop :=
  (x = none ∧ y = none) ∨ ∃ a b, x = some a ∧ y = some b ∧ Iso s₁ s₂ a b

lemma OptIso.mk {s₁ s₂ : Svd d} {a b : PState d} (h : Iso s₁ s₂ a b) : OptIso s₁ s₂ (some a) (some b) :=
  Or.inr ⟨a, b, rfl, rfl, h⟩

lemma OptIso.bind {α : Type} {s₁ s₂ : Svd d} (x : Option α) {f g : α → Option (PState d)}
    (h : ∀ a, OptIso s₁ s₂ (f a) (g a)) : OptIso s₁ s₂ (x.bind f) (x.bind g) := by
  cases x with
  | none => exact Or.inl ⟨rfl, rfl⟩
  | some a => exact h a

section
variable {cabs : ℝ → ℝ} {m : Material} {dt : ℝ} {s₁ s₂ : Svd d} {tr nn : ℝ} {D L : ℝ → ℝ}
  {q : Particle d ℝ} {F₁ F₂ : Matrix (Fin d) (Fin d) ℝ} {c : ℕ} {e : Bool} {g k : ℝ → ℝ}

/-- Trial quantities with direction given by a function. -/
abbrev trialOf (s : Svd d) (L D : ℝ → ℝ) (tr nn : ℝ) : Trial d :=
  ⟨fun i => L (s.sig i), tr, nn, fun i => D (s.sig i)⟩

variable (hF₁ : F₁ = s₁.U * diagonal (fun i => k (s₁.sig i)) * s₁.Vᵀ)
  (hF₂ : F₂ = s₂.U * diagonal (fun i => k (s₂.sig i)) * s₂.Vᵀ)
include hF₁ hF₂

lemma iso_vm : Iso s₁ s₂
    (plastVM m dt s₁ (trialOf s₁ L D tr nn) ⟨{ q with F := F₁ }, fun i => L (s₁.sig i), c, e⟩)
    (plastVM m dt s₂ (trialOf s₂ L D tr nn) ⟨{ q with F := F₂ }, fun i => L (s₂.sig i), c, e⟩) := by
  simp only [plastVM, trialOf]
  by_cases h1 : nn - m.qMax / m.eMu > 0
  · simp only [if_pos h1]
    exact ⟨rfl, rfl, rfl, fun x => L x - (nn - m.qMax / m.eMu) * D x,
      fun x => Real.exp (L x - (nn - m.qMax / m.eMu) * D x), fun _ => rfl, fun _ => rfl, rfl, rfl⟩
  · simp only [if_neg h1]
    exact ⟨rfl, rfl, rfl, L, k, fun _ => rfl, fun _ => rfl, hF₁, hF₂⟩

omit hF₁ hF₂ in
/-- An update by subtracting a multiple of the direction. -/
lemma iso_sub {a b : PState d} {r : ℝ} (hq : b.q = { a.q with F := b.q.F, tau := b.q.tau })
    (hc : b.count = a.count) (he : b.exit = a.exit)
    (ha : a.hencky = (fun i => L (s₁.sig i)) - r • fun i => D (s₁.sig i))
    (hb : b.hencky = (fun i => L (s₂.sig i)) - r • fun i => D (s₂.sig i))
    (hFa : a.q.F = s₁.expF a.hencky) (hFb : b.q.F = s₂.expF b.hencky) : Iso s₁ s₂ a b :=
  ⟨hq, hc, he, fun x => L x - r * D x, fun x => Real.exp (L x - r * D x),
    fun _ => by rw [ha]; rfl, fun _ => by rw [hb]; rfl, by rw [hFa, ha]; rfl, by rw [hFb, hb]; rfl⟩

omit hF₁ hF₂ in
/-- An update to an isotropic strain. -/
lemma iso_const {a b : PState d} {r : ℝ} (hq : b.q = { a.q with F := b.q.F, tau := b.q.tau })
    (hc : b.count = a.count) (he : b.exit = a.exit)
    (ha : a.hencky = fun _ => r) (hb : b.hencky = fun _ => r)
    (hFa : a.q.F = s₁.expF a.hencky) (hFb : b.q.F = s₂.expF b.hencky) : Iso s₁ s₂ a b :=
  ⟨hq, hc, he, fun _ => r, fun _ => Real.exp r,
    fun _ => by rw [ha], fun _ => by rw [hb], by rw [hFa, ha]; rfl, by rw [hFb, hb]; rfl⟩

omit hF₁ hF₂ in
/-- An update to a function of the singular values. -/
lemma iso_fun (f : ℝ → ℝ) {a b : PState d} (hq : b.q = { a.q with F := b.q.F, tau := b.q.tau })
    (hc : b.count = a.count) (he : b.exit = a.exit)
    (ha : a.hencky = fun i => f (s₁.sig i)) (hb : b.hencky = fun i => f (s₂.sig i))
    (hFa : a.q.F = s₁.expF a.hencky) (hFb : b.q.F = s₂.expF b.hencky) : Iso s₁ s₂ a b :=
  ⟨hq, hc, he, f, fun x => Real.exp (f x),
    fun _ => by rw [ha], fun _ => by rw [hb], by rw [hFa, ha]; rfl, by rw [hFb, hb]; rfl⟩

/-- No update. -/
lemma iso_same {a b : PState d} (hq : b.q = { a.q with F := b.q.F, tau := b.q.tau })
    (hc : b.count = a.count) (he : b.exit = a.exit)
    (ha : a.hencky = fun i => L (s₁.sig i)) (hb : b.hencky = fun i => L (s₂.sig i))
    (hFa : a.q.F = F₁) (hFb : b.q.F = F₂) : Iso s₁ s₂ a b :=
  ⟨hq, hc, he, L, k, fun _ => by rw [ha], fun _ => by rw [hb], hFa.trans hF₁, hFb.trans hF₂⟩

lemma iso_dp : Iso s₁ s₂
    (plastDP m dt s₁ (trialOf s₁ L D tr nn) ⟨{ q with F := F₁ }, fun i => L (s₁.sig i), c, e⟩)
    (plastDP m dt s₂ (trialOf s₂ L D tr nn) ⟨{ q with F := F₂ }, fun i => L (s₂.sig i), c, e⟩) := by
  simp only [plastDP, trialOf]
  split_ifs
  · exact iso_const rfl rfl rfl rfl rfl rfl rfl
  · exact iso_sub rfl rfl rfl rfl rfl rfl rfl
  · exact iso_same hF₁ hF₂ rfl rfl rfl rfl rfl rfl rfl

lemma iso_dpSoft : Iso s₁ s₂
    (plastDPSoft m dt s₁ (trialOf s₁ L D tr nn) ⟨{ q with F := F₁ }, fun i => L (s₁.sig i), c, e⟩)
    (plastDPSoft m dt s₂ (trialOf s₂ L D tr nn) ⟨{ q with F := F₂ }, fun i => L (s₂.sig i), c, e⟩) := by
  simp only [plastDPSoft, trialOf]
  generalize (if m.usePradhana = true then -m.K d * q.epsPlVolPradhana else 0) = pShift
  by_cases h1 : -m.K d * tr + pShift ≤ -m.qCohesion / m.M * Real.exp (-m.xi * q.epsPlDev)
  · simp only [if_pos h1]
    exact iso_const rfl rfl rfl rfl rfl rfl rfl
  · simp only [if_neg h1]
    split_ifs
    all_goals first
      | exact iso_same hF₁ hF₂ rfl rfl rfl rfl rfl rfl rfl
      | exact iso_const rfl rfl rfl rfl rfl rfl rfl
      | exact iso_sub rfl rfl rfl rfl rfl rfl rfl

lemma iso_vmVisc : OptIso s₁ s₂
    (plastVMVisc m dt s₁ (trialOf s₁ L D tr nn) ⟨{ q with F := F₁ }, fun i => L (s₁.sig i), c, e⟩)
    (plastVMVisc m dt s₂ (trialOf s₂ L D tr nn) ⟨{ q with F := F₂ }, fun i => L (s₂.sig i), c, e⟩) := by
  simp only [plastVMVisc, trialOf]
  split_ifs
  · exact .mk ⟨rfl, rfl, rfl, L, fun _ => 1, fun _ => rfl, fun _ => rfl, by simp, by simp⟩
  · exact OptIso.bind _ fun r => .mk (iso_sub rfl rfl rfl rfl rfl rfl rfl)
  · exact .mk (iso_same hF₁ hF₂ rfl rfl rfl rfl rfl rfl rfl)

lemma iso_dpVisc : OptIso s₁ s₂
    (plastDPVisc m dt s₁ (trialOf s₁ L D tr nn) ⟨{ q with F := F₁ }, fun i => L (s₁.sig i), c, e⟩)
    (plastDPVisc m dt s₂ (trialOf s₂ L D tr nn) ⟨{ q with F := F₂ }, fun i => L (s₂.sig i), c, e⟩) := by
  simp only [plastDPVisc, trialOf]
  generalize (if m.usePradhana = true then -m.K d * q.epsPlVolPradhana else 0) = pShift
  cases m.useMibf <;> simp only [if_true, if_false, Bool.false_eq_true]
  all_goals
    by_cases h1 : -m.K d * tr + pShift < -m.qCohesion / m.M
  all_goals first | simp only [if_pos h1] | simp only [if_neg h1]
  all_goals
    by_cases h2 : -m.K d * tr + pShift > -m.qCohesion / m.M ∧
      m.eMu * nn > m.M * (-m.K d * tr + pShift) + m.qCohesion
  all_goals
    first | simp only [if_pos h2] | simp only [if_neg h2]
  all_goals first
    | exact OptIso.bind _ fun r => .mk (iso_sub rfl rfl rfl rfl rfl rfl rfl)
    | exact .mk (iso_same hF₁ hF₂ rfl rfl rfl rfl rfl rfl rfl)
    | exact .mk (iso_const rfl rfl rfl rfl rfl rfl rfl)

lemma iso_dpMui : Iso s₁ s₂
    (plastDPMui m dt s₁ (trialOf s₁ L D tr nn) ⟨{ q with F := F₁ }, fun i => L (s₁.sig i), c, e⟩)
    (plastDPMui m dt s₂ (trialOf s₂ L D tr nn) ⟨{ q with F := F₂ }, fun i => L (s₂.sig i), c, e⟩) := by
  simp only [plastDPMui, trialOf]
  generalize (if m.usePradhana = true then -m.K d * q.epsPlVolPradhana else 0) = pShift
  by_cases h1 : -m.K d * tr + pShift < -m.qCohesion / m.mu1
  all_goals first | simp only [if_pos h1] | simp only [if_neg h1]
  all_goals
    by_cases h2 : -m.K d * tr + pShift > -m.qCohesion / m.mu1 ∧
      m.eMu * nn > m.mu1 * (-m.K d * tr + pShift) + m.qCohesion + m.stressTol
  all_goals
    first | simp only [if_pos h2] | simp only [if_neg h2]
  all_goals first
    | exact iso_same hF₁ hF₂ rfl rfl rfl rfl rfl rfl rfl
    | exact iso_const rfl rfl rfl rfl rfl rfl rfl
    | exact iso_sub rfl rfl rfl rfl rfl rfl rfl

lemma iso_mcc : OptIso s₁ s₂
    (plastMCC cabs m dt s₁ (trialOf s₁ L D tr nn) ⟨{ q with F := F₁ }, fun i => L (s₁.sig i), c, e⟩)
    (plastMCC cabs m dt s₂ (trialOf s₂ L D tr nn) ⟨{ q with F := F₂ }, fun i => L (s₂.sig i), c, e⟩) := by
  simp only [plastMCC, trialOf]
  cases hm : m.useMibf <;> simp only [if_true, if_false, Bool.false_eq_true]
  all_goals refine OptIso.bind _ fun r => ?_
  all_goals by_cases h1 : r.2.did = true
  all_goals first | simp only [if_pos h1] | simp only [if_neg h1]
  all_goals first
    | exact .mk (iso_same hF₁ hF₂ rfl rfl rfl rfl rfl rfl rfl)
    | skip
  all_goals by_cases h2 : m.plastic = .mccVisc
  all_goals first | simp only [if_pos h2] | simp only [if_neg h2]
  all_goals try refine OptIso.bind _ fun v => ?_
  all_goals try refine OptIso.bind _ fun u => ?_
  all_goals exact .mk (iso_fun (fun x => _ * D x + _) rfl rfl rfl rfl rfl rfl rfl)

lemma iso_mccMui : OptIso s₁ s₂
    (plastMCCMui cabs m dt s₁ (trialOf s₁ L D tr nn) ⟨{ q with F := F₁ }, fun i => L (s₁.sig i), c, e⟩)
    (plastMCCMui cabs m dt s₂ (trialOf s₂ L D tr nn) ⟨{ q with F := F₂ }, fun i => L (s₂.sig i), c, e⟩) := by
  simp only [plastMCCMui, trialOf]
  refine OptIso.bind _ fun r => ?_
  by_cases h1 : r.2.did = true
  · simp only [if_pos h1]
    by_cases h2 : m.eMu * nn > r.2.q + m.stressTol
    · simp only [if_pos h2]
      cases hh : m.hardening <;> simp only [Option.bind_eq_bind, Option.bind_some, Option.bind_assoc]
      all_goals try refine OptIso.bind _ fun pc => ?_
      all_goals refine OptIso.bind _ fun rp => ?_
      all_goals refine OptIso.bind _ fun rr => ?_
      all_goals try refine OptIso.bind _ fun w => ?_
      all_goals exact .mk (iso_fun (fun x => _ * D x - _) rfl rfl rfl rfl rfl rfl rfl)
    · simp only [if_neg h2]
      exact .mk (iso_fun (fun x => _ * D x - _) rfl rfl rfl rfl rfl rfl rfl)
  · simp only [if_neg h1]
    exact .mk (iso_same hF₁ hF₂ rfl rfl rfl rfl rfl rfl rfl)

/-- Every plastic model is an isotropic function of the deformation. -/
lemma iso_plastModel (hdet : F₁.det ≤ 0 ↔ F₂.det ≤ 0) : OptIso s₁ s₂
    (plastModel cabs m dt s₁ (trialOf s₁ L D tr nn) ⟨{ q with F := F₁ }, fun i => L (s₁.sig i), c, e⟩)
    (plastModel cabs m dt s₂ (trialOf s₂ L D tr nn) ⟨{ q with F := F₂ }, fun i => L (s₂.sig i), c, e⟩) := by
  unfold plastModel
  cases m.plastic <;> simp only
  · by_cases h : m.elastic = .neoHookean ∧ F₁.det ≤ 0
    · rw [if_pos h, if_pos (by rwa [hdet] at h)]; exact .inl ⟨rfl, rfl⟩
    rw [if_neg h, if_neg (by rwa [hdet] at h)]
    exact .mk (iso_same hF₁ hF₂ rfl rfl rfl rfl rfl rfl rfl)
  all_goals first
    | exact .mk (iso_vm hF₁ hF₂)
    | exact .mk (iso_dp hF₁ hF₂)
    | exact .mk (iso_dpSoft hF₁ hF₂)
    | exact iso_vmVisc hF₁ hF₂
    | exact iso_dpVisc hF₁ hF₂
    | exact .mk (iso_dpMui hF₁ hF₂)
    | exact iso_mccMui hF₁ hF₂
    | exact iso_mcc hF₁ hF₂

end

end Verif
