import Verif.Lemmas.Consistent

set_option linter.unusedSectionVars false
set_option linter.unusedSimpArgs false
set_option linter.unusedVariables false

/-! # The plastic models keep account of the strain they remove -/

namespace Verif
open Matrix

variable {d : ℕ} {cabs : ℝ → ℝ} {m : Material} {dt : ℝ} {s : Svd d} {t : Trial d} {st out : PState d}

/-- The new strain is `a dir + b`; `δ` is the removed shear strain that is not accounted for. -/
structure Book (m : Material) (dt : ℝ) (s : Svd d) (t : Trial d) (st out : PState d) (δ a b : ℝ) : Prop where
  F : out.q.F = s.expF (fun i => a * t.dir i + b) ∨ out.q.F = st.q.F ∧ ∀ i, t.hencky i = a * t.dir i + b
  vol : out.q.epsPlVol + d * b = st.q.epsPlVol + t.trace
  dev : out.q.epsPlDev + a + δ = st.q.epsPlDev + t.norm
  rate : out.q.deltaGamma * dt = m.dPre * (out.q.epsPlDev - st.q.epsPlDev) ∨
    (out.q.deltaGamma = st.q.deltaGamma ∧ out.q.epsPlDev = st.q.epsPlDev) ∨
    (m.plastic = .dpMui ∧ out.q.deltaGamma = m.dPre * (out.q.epsPlDev - st.q.epsPlDev))

/-- Decomposition of the trial strain. -/
def TrialOk (t : Trial d) : Prop := ∀ i, t.hencky i = t.norm * t.dir i + t.trace / d

lemma trialOk_mk (hd : 0 < d) (h : Fin d → ℝ) : TrialOk (mkTrial h) := by
  intro i
  have := congrFun (mkTrial_dir h) i
  simp only [devOf, Pi.smul_apply, smul_eq_mul] at this
  rw [← this, mkTrial_trace, mkTrial_hencky]
  ring

variable (ok : MatOk m d) (ht : TrialOk t) (hdt : dt ≠ 0)
include ok ht hdt

/-- Nothing happens. -/
lemma Book.elastic (hF : out.q.F = st.q.F) (h1 : out.q.epsPlVol = st.q.epsPlVol) (h2 : out.q.epsPlDev = st.q.epsPlDev)
    (h3 : out.q.deltaGamma = st.q.deltaGamma ∨ out.q.deltaGamma = 0) : Book m dt s t st out 0 t.norm (t.trace / d) := by
  have := ok.dne
  refine ⟨.inr ⟨hF, ht⟩, by rw [h1]; field_simp, by rw [h2]; ring, ?_⟩
  rcases h3 with h3 | h3
  · exact .inr (.inl ⟨h3, h2⟩)
  · left; rw [h3, h2]; ring

/-- Shear flow by `x`. -/
lemma Book.shear {x : ℝ} (hF : out.q.F = s.expF (t.hencky - x • t.dir)) (h1 : out.q.epsPlVol = st.q.epsPlVol)
    (h2 : out.q.epsPlDev = st.q.epsPlDev + x) (h3 : out.q.deltaGamma = m.dPre * x / dt) :
    Book m dt s t st out 0 (t.norm - x) (t.trace / d) := by
  have := ok.dne
  refine ⟨.inl ?_, by rw [h1]; field_simp, by rw [h2]; ring, .inl ?_⟩
  · rw [hF]
    congr 1
    funext i
    simp only [Pi.sub_apply, Pi.smul_apply, smul_eq_mul, ht i]
    ring
  · rw [h3, h2]; field_simp; ring

/-- Projection to a state without shear. -/
lemma Book.tip {b : ℝ} (hF : out.q.F = s.expF (fun _ => b)) (h1 : out.q.epsPlVol + d * b = st.q.epsPlVol + t.trace)
    (h2 : out.q.epsPlDev = st.q.epsPlDev + t.norm)
    (h3 : out.q.deltaGamma = m.dPre * t.norm / dt ∨ (m.plastic = .dpMui ∧ out.q.deltaGamma = m.dPre * t.norm)) :
    Book m dt s t st out 0 0 b := by
  refine ⟨.inl ?_, h1, by rw [h2]; ring, ?_⟩
  · rw [hF]; simp
  · rcases h3 with h3 | ⟨hm, h3⟩
    · left; rw [h3, h2]; field_simp; ring
    · right; right; exact ⟨hm, by rw [h3, h2]; ring⟩

lemma book_vm : ∃ a b, Book m dt s t st (plastVM m dt s t st) 0 a b := by
  simp only [plastVM]; split_ifs
  · exact ⟨_, _, .shear ok ht hdt rfl rfl rfl rfl⟩
  · exact ⟨_, _, .elastic ok ht hdt rfl rfl rfl (.inl rfl)⟩

lemma dPre_cancel (x : ℝ) : 1 / m.dPre * (m.dPre * x) = x := by
  have := ok.dPre_pos.ne'; field_simp

lemma tip_vol (e pT pp : ℝ) (hp : pT = -m.K d * t.trace) :
    e + (pp - pT) / m.K d + d * (-pp / (m.K d * d)) = e + t.trace := by
  have := ok.dne
  have := ok.hK.ne'
  rw [hp]; field_simp; ring

lemma book_dp : ∃ a b, Book m dt s t st (plastDP m dt s t st) 0 a b := by
  have h0 := dPre_cancel ok ht hdt
  simp only [plastDP]; split_ifs
  · exact ⟨_, _, .tip ok ht hdt rfl (tip_vol ok ht hdt _ _ _ rfl) (by simp only [h0]) (.inl rfl)⟩
  · exact ⟨_, _, .shear ok ht hdt (by simp only [h0]) rfl (by simp only [h0]) rfl⟩
  · exact ⟨_, _, .elastic ok ht hdt rfl rfl rfl (.inl rfl)⟩

lemma book_dpSoft : ∃ a b, Book m dt s t st (plastDPSoft m dt s t st) 0 a b := by
  have h0 := dPre_cancel ok ht hdt
  simp only [plastDPSoft]
  generalize (if m.usePradhana = true then -m.K d * st.q.epsPlVolPradhana else 0) = pShift
  split
  · exact ⟨_, _, .tip ok ht hdt rfl (tip_vol ok ht hdt _ _ _ rfl) (by simp only [h0]) (.inl rfl)⟩
  · split
    · exact ⟨_, _, .elastic ok ht hdt rfl rfl rfl (.inr rfl)⟩
    · split
      · exact ⟨_, _, .tip ok ht hdt rfl (tip_vol ok ht hdt _ _ _ rfl) (by simp only [h0]) (.inl rfl)⟩
      · exact ⟨_, _, .shear ok ht hdt (by simp only [h0]) rfl (by simp only [h0]) rfl⟩

lemma book_dpMui (hm : m.plastic = .dpMui) : ∃ a b, Book m dt s t st (plastDPMui m dt s t st) 0 a b := by
  have h0 := dPre_cancel ok ht hdt
  have h1 := ok.dPre_pos.ne'
  have hr : ∀ y : ℝ, y = m.dPre * (1 / m.dPre * y) := fun y => by field_simp
  simp only [plastDPMui]
  generalize (if m.usePradhana = true then -m.K d * st.q.epsPlVolPradhana else 0) = pShift
  by_cases hA : -m.K d * t.trace + pShift < -m.qCohesion / m.mu1
  · have hB : ¬ (-m.K d * t.trace + pShift > -m.qCohesion / m.mu1 ∧ m.eMu * t.norm >
        m.mu1 * (-m.K d * t.trace + pShift) + m.qCohesion + m.stressTol) := fun h => by linarith [h.1]
    simp only [if_pos hA, if_neg hB]
    exact ⟨_, _, .tip ok ht hdt rfl (tip_vol ok ht hdt _ _ _ rfl) (by simp only [h0]) (.inr ⟨hm, rfl⟩)⟩
  · simp only [if_neg hA]
    split_ifs
    · exact ⟨_, _, .shear ok ht hdt rfl rfl rfl (by simp only; rw [← hr])⟩
    · exact ⟨_, _, .elastic ok ht hdt rfl rfl rfl (.inl rfl)⟩

lemma book_vmVisc (ho : plastVMVisc m dt s t st = some out) : ∃ a b, Book m dt s t st out 0 a b := by
  have h1 := ok.dPre_pos.ne'
  have hr : ∀ y : ℝ, y = m.dPre * (1 / m.dPre * y) := fun y => by field_simp
  have hf : m.eMu * t.norm / m.fMu = m.dPre * t.norm := by
    rw [ok.fMu_eq]
    have := ok.eMu_pos.ne'
    field_simp
  simp only [plastVMVisc] at ho
  split_ifs at ho
  · obtain rfl := Option.some.inj ho
    have hK := ok.hK.ne'
    refine ⟨0, 0, .tip ok ht hdt ?_ ?_ ?_ (.inl ?_)⟩
    · simp [Svd.expF]
    · simp only; field_simp; ring
    · simp only [hf, dPre_cancel ok ht hdt]
    · simp only [hf]
  · simp only [Option.bind_eq_bind, Option.bind_eq_some_iff, Option.some.injEq] at ho
    obtain ⟨r, -, rfl⟩ := ho
    exact ⟨_, _, .shear ok ht hdt rfl rfl rfl (by simp only; rw [← hr])⟩
  · obtain rfl := Option.some.inj ho
    exact ⟨_, _, .elastic ok ht hdt rfl rfl rfl (.inl rfl)⟩

lemma book_dpVisc (ho : plastDPVisc m dt s t st = some out) : ∃ a b, Book m dt s t st out 0 a b := by
  have h0 := dPre_cancel ok ht hdt
  have h1 := ok.dPre_pos.ne'
  have hr : ∀ y : ℝ, y = m.dPre * (1 / m.dPre * y) := fun y => by field_simp
  simp only [plastDPVisc] at ho
  generalize (if m.usePradhana = true then -m.K d * st.q.epsPlVolPradhana else 0) = pShift at ho
  by_cases h2 : -m.K d * t.trace + pShift > -m.qCohesion / m.M ∧
      m.eMu * t.norm > m.M * (-m.K d * t.trace + pShift) + m.qCohesion
  · have hA : ¬ -m.K d * t.trace + pShift < -m.qCohesion / m.M := fun h => by linarith [h2.1]
    simp only [if_pos h2, if_neg hA, Option.bind_eq_bind, Option.bind_eq_some_iff, Option.some.injEq] at ho
    obtain ⟨r, -, rfl⟩ := ho
    cases hm : m.useMibf
    · exact ⟨_, _, .shear ok ht hdt rfl rfl rfl (by simp only; rw [← hr])⟩
    · exact ⟨_, _, .shear ok ht hdt rfl rfl rfl (by simp only; rw [← hr])⟩
  · rw [if_neg h2] at ho
    obtain rfl := Option.some.inj ho
    cases hm : m.useMibf <;> simp only [if_true, if_false, Bool.false_eq_true] <;> split_ifs
    all_goals first
    | exact ⟨_, _, .elastic ok ht hdt rfl rfl rfl (.inr rfl)⟩
    | exact ⟨_, _, .tip ok ht hdt rfl (tip_vol ok ht hdt _ _ _ rfl) (by simp only [h0]) (.inl rfl)⟩

lemma book_mcc (ho : plastMCC cabs m dt s t st = some out) : ∃ a b, Book m dt s t st out 0 a b := by
  have hK := ok.hK.ne'
  have he := ok.eMu_pos.ne'
  have hd := ok.dne
  have key : ∀ (v1 v2 p : ℝ) {out : PState d},
      out.q.F = s.expF (fun i => (m.eMu * t.norm / m.eMu - v1 * (m.eMu * t.norm - v2) / m.eMu) * t.dir i +
        (- (-m.K d * t.trace) / m.K d - -v1 * (-m.K d * t.trace - p) / m.K d) / d) →
      out.q.epsPlVol = st.q.epsPlVol + -v1 * (-m.K d * t.trace - p) / m.K d →
      out.q.epsPlDev = st.q.epsPlDev + v1 * (m.eMu * t.norm - v2) / m.eMu →
      out.q.deltaGamma = m.dPre * (v1 * (m.eMu * t.norm - v2) / m.eMu) / dt → ∃ a b, Book m dt s t st out 0 a b := by
    intro v1 v2 p out hF hv hD hr
    refine ⟨_, _, .inl hF, ?_, ?_, .inl ?_⟩
    · rw [hv]; field_simp; ring
    · rw [hD]; field_simp; ring
    · rw [hr, hD]; field_simp; ring
  simp only [plastMCC, Option.bind_eq_bind, Option.bind_eq_some_iff] at ho
  obtain ⟨r, -, ho⟩ := ho
  by_cases h1 : r.2.did = true
  · simp only [if_pos h1] at ho
    by_cases h2 : m.plastic = .mccVisc
    · simp only [if_pos h2] at ho
      cases hm : m.useMibf <;>
        simp only [hm, if_true, if_false, Bool.false_eq_true, Option.bind_some, Option.bind_eq_some_iff,
          Option.some.injEq] at ho
      · obtain ⟨v, -, rfl⟩ := ho
        exact key v.1 v.2.1 r.2.p rfl rfl rfl rfl
      · obtain ⟨v, -, u, -, rfl⟩ := ho
        exact key v.1 v.2.1 r.2.p rfl rfl rfl rfl
    · simp only [if_neg h2] at ho
      cases hm : m.useMibf <;>
        simp only [hm, if_true, if_false, Bool.false_eq_true, Option.bind_some, Option.bind_eq_some_iff,
          Option.some.injEq] at ho
      · obtain rfl := ho
        exact key 1 r.2.q r.2.p rfl rfl rfl rfl
      · obtain ⟨v, -, rfl⟩ := ho
        exact key 1 r.2.q r.2.p rfl rfl rfl rfl
  · simp only [if_neg h1, Option.some.injEq] at ho
    obtain rfl := ho
    cases hm : m.useMibf
    · exact ⟨_, _, .elastic ok ht hdt rfl rfl rfl (.inl rfl)⟩
    · exact ⟨_, _, .elastic ok ht hdt rfl rfl rfl (.inl rfl)⟩

lemma book_mccMui (htol : 0 ≤ m.stressTol) (ho : plastMCCMui cabs m dt s t st = some out) :
    ∃ δ a b, Book m dt s t st out δ a b ∧ m.eMu * δ ≤ m.stressTol := by
  have hK := ok.hK.ne'
  have he := ok.eMu_pos.ne'
  have hd := ok.dne
  have h1 := ok.dPre_pos.ne'
  have hf : ∀ x, 1 / m.dPre * ((m.eMu * t.norm - x) / m.fMu) = t.norm - x / m.eMu := by
    intro x; rw [ok.fMu_eq]; field_simp
  have hf2 : ∀ x, (m.eMu * t.norm - x) / m.fMu = m.dPre * (t.norm - x / m.eMu) := by
    intro x; rw [ok.fMu_eq]; field_simp
  have hFF : ∀ (x p : ℝ), s.expF (fun i => x / m.eMu * t.dir i - p / (m.K d * d)) =
      s.expF (fun i => x / m.eMu * t.dir i + -(p / (m.K d * d))) := by
    intro x p; congr 1
  simp only [plastMCCMui, Option.bind_eq_bind, Option.bind_eq_some_iff] at ho
  obtain ⟨r, -, ho⟩ := ho
  by_cases h1 : r.2.did = true
  · simp only [if_pos h1] at ho
    by_cases h2 : m.eMu * t.norm > r.2.q + m.stressTol
    · have key : ∀ (qs : ℝ) {out : PState d},
          out.q.F = s.expF (fun i => qs / m.eMu * t.dir i - r.2.p / (m.K d * d)) →
          out.q.epsPlVol = st.q.epsPlVol + (t.trace + d * (r.2.p / (m.K d * d))) →
          out.q.epsPlDev = st.q.epsPlDev + 1 / m.dPre * ((m.eMu * t.norm - qs) / m.fMu) →
          out.q.deltaGamma = (m.eMu * t.norm - qs) / m.fMu / dt →
          ∃ δ a b, Book m dt s t st out δ a b ∧ m.eMu * δ ≤ m.stressTol := by
        intro qs out hF hv hD hr
        refine ⟨0, _, _, ⟨.inl (hF.trans (hFF _ _)), ?_, ?_, .inl ?_⟩, by simpa using htol⟩
        · rw [hv]; ring
        · rw [hD, hf]; ring
        · rw [hr, hD, hf, hf2]; field_simp; ring
      simp only [if_pos h2] at ho
      cases hh : m.hardening <;> simp only [hh, Option.bind_some, Option.bind_assoc,
        Option.bind_eq_some_iff, Option.some.injEq] at ho
      all_goals
        obtain ⟨_, -, _, -, _, -, _, -, rfl⟩ := ho
        exact key _ rfl rfl rfl rfl
    · simp only [if_neg h2, Option.bind_some, Option.some.injEq] at ho
      obtain rfl := ho
      refine ⟨t.norm - r.2.q / m.eMu, _, _, ⟨.inl (hFF _ _), ?_, ?_, .inr (.inl ⟨rfl, rfl⟩)⟩, ?_⟩
      · simp only; ring
      · simp only; ring
      · have : m.eMu * (t.norm - r.2.q / m.eMu) = m.eMu * t.norm - r.2.q := by field_simp
        rw [this]; linarith
  · simp only [if_neg h1, Option.some.injEq] at ho
    obtain rfl := ho
    exact ⟨0, _, _, .elastic ok ht hdt rfl rfl rfl (.inl rfl), by simpa using htol⟩

/-- All models. -/
lemma book_plastModel (htol : 0 ≤ m.stressTol) (ho : plastModel cabs m dt s t st = some out) :
    ∃ δ a b, Book m dt s t st out δ a b ∧ (m.plastic ≠ .mccMui → δ = 0) ∧ m.eMu * δ ≤ m.stressTol := by
  have wrap : (∃ a b, Book m dt s t st out 0 a b) →
      ∃ δ a b, Book m dt s t st out δ a b ∧ (m.plastic ≠ .mccMui → δ = 0) ∧ m.eMu * δ ≤ m.stressTol :=
    fun ⟨a, b, h⟩ => ⟨0, a, b, h, fun _ => rfl, by simpa using htol⟩
  unfold plastModel at ho
  cases hp : m.plastic <;> simp only [hp, Option.some.injEq, Option.ite_none_left_eq_some] at ho
  case noPlasticity =>
    obtain ⟨-, rfl⟩ := ho
    have := wrap ⟨_, _, .elastic ok ht hdt rfl rfl rfl (.inl rfl)⟩
    rwa [hp] at this
  case mccMui =>
    obtain ⟨δ, a, b, h, h'⟩ := book_mccMui ok ht hdt htol ho
    exact ⟨δ, a, b, h, fun hne => absurd rfl hne, h'⟩
  all_goals rw [← hp]; apply wrap
  all_goals first
    | exact book_vmVisc ok ht hdt ho
    | exact book_dpVisc ok ht hdt ho
    | exact book_mcc ok ht hdt ho
    | (subst ho; exact book_vm ok ht hdt)
    | (subst ho; exact book_dp ok ht hdt)
    | (subst ho; exact book_dpSoft ok ht hdt)
    | (subst ho; exact book_dpMui ok ht hdt hp)

end Verif
