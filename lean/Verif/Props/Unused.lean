import Verif.Model.Files
import Verif.Props.Longer

set_option linter.unusedSectionVars false
set_option linter.unusedSimpArgs false
set_option linter.unusedVariables false

/-!
# C110: parameters that do not belong to the chosen model do not matter
-/

namespace Verif.Props
open Verif Matrix

/-- The parameters of the Cam-Clay models apart from the slopes of the critical state line. -/
def SameClay (m m' : Material) : Prop :=
  m.hardening = m'.hardening ∧ m.p0 = m'.p0 ∧ m.beta = m'.beta ∧ (m.hardening ≠ .noHard → m.xi = m'.xi)

/-- The parameters of the viscous flow rules. -/
def SameFlow (m m' : Material) : Prop :=
  m.viscExponent = m'.viscExponent ∧ m.viscTime = m'.viscTime ∧ m.useDuvautLions = m'.useDuvautLions

/-- The parameters of the rheology `mu(I)`; of the inertial number only one combination counts. -/
def SameInertial (m m' : Material) : Prop :=
  m.mu1 = m'.mu1 ∧ m.mu2 = m'.mu2 ∧
    m.iRef / (m.grainDiameter * Real.sqrt m.rhoS) = m'.iRef / (m'.grainDiameter * Real.sqrt m'.rhoS)

/-- The two materials agree on the parameters of their common model. `mibf` tells whether the internal friction of the material is
used at the boundaries. -/
def SameModel (mibf : Bool) (m m' : Material) : Prop :=
  m.elastic = m'.elastic ∧ m.plastic = m'.plastic ∧ m.E = m'.E ∧ m.nu = m'.nu ∧ m.qPrefac = m'.qPrefac ∧
  (mibf = true → m.plastic ≠ .dpMui → m.plastic ≠ .mccMui → m.M = m'.M) ∧
  match m.plastic with
  | .noPlasticity => True
  | .vm => m.qMax = m'.qMax
  | .dp => m.M = m'.M ∧ m.qCohesion = m'.qCohesion
  | .dpSoft => m.M = m'.M ∧ m.qCohesion = m'.qCohesion ∧ m.xi = m'.xi ∧ m.usePradhana = m'.usePradhana
  | .vmVisc => m.qMax = m'.qMax ∧ m.qMin = m'.qMin ∧ m.pMin = m'.pMin ∧ m.xi = m'.xi ∧ SameFlow m m'
  | .dpVisc => m.M = m'.M ∧ m.qCohesion = m'.qCohesion ∧ m.usePradhana = m'.usePradhana ∧ SameFlow m m'
  | .mcc => m.M = m'.M ∧ SameClay m m' ∧
      (mibf = true ∨ m.hardening = .expoExpl ∨ m.hardening = .sinhExpl → m.stressTol = m'.stressTol)
  | .mccVisc => m.M = m'.M ∧ SameClay m m' ∧ SameFlow m m' ∧
      (mibf = true ∨ m.hardening = .expoExpl ∨ m.hardening = .sinhExpl → m.stressTol = m'.stressTol)
  | .dpMui => SameInertial m m' ∧ m.qCohesion = m'.qCohesion ∧ m.usePradhana = m'.usePradhana ∧ m.stressTol = m'.stressTol
  | .mccMui => SameInertial m m' ∧ SameClay m m' ∧ m.stressTol = m'.stressTol

section
variable {d : ℕ} {mibf : Bool} {m m' : Material}

lemma SameModel.moduli (h : SameModel mibf m m') : m'.lam = m.lam ∧ m'.mu = m.mu ∧ (∀ d, m'.K d = m.K d) ∧ m'.dPre = m.dPre ∧ m'.eMu = m.eMu ∧
    m'.fMu = m.fMu := by
  obtain ⟨-, -, hE, hn, hq, -⟩ := h
  simp [Material.lam, Material.mu, Material.K, Material.dPre, Material.eMu, Material.fMu, hE, hn, hq]

lemma SameFlow.viscIncrement (h : SameFlow m m') (hf : m'.fMu = m.fMu) : viscIncrement m' = viscIncrement m := by
  obtain ⟨h1, h2, h3⟩ := h
  funext dt c qt qy f g e
  have a : residDL m' = residDL m := by funext a b c d; simp [residDL, h1, h2, hf]
  have b : residDiffDL m' = residDiffDL m := by funext a b c; simp [residDiffDL, h1, h2, hf]
  have c' : residPerzyna m' = residPerzyna m := by funext a b c d; simp [residPerzyna, h1, h2, hf]
  have d' : residDiffPerzyna m' = residDiffPerzyna m := by funext a b c d; simp [residDiffPerzyna, h1, h2, hf]
  simp [Verif.viscIncrement, closedForm, a, b, c', d', hf, h1, h2, h3]

lemma SameFlow.mccViscous (h : SameFlow m m') (hf : m'.fMu = m.fMu) : mccViscous m' = mccViscous m := by
  obtain ⟨h1, h2, h3⟩ := h
  funext dt qt qy e
  have c' : residPerzyna m' = residPerzyna m := by funext a b c d; simp [residPerzyna, h1, h2, hf]
  have d' : residDiffPerzyna m' = residDiffPerzyna m := by funext a b c d; simp [residDiffPerzyna, h1, h2, hf]
  simp [Verif.mccViscous, c', d', hf, h1, h2, h3]

lemma SameClay.mccReturn (h : SameClay m m') (hK : ∀ d, m'.K d = m.K d) (hf : m'.fMu = m.fMu) (hmu : m'.mu = m.mu)
    (ht : m.hardening = .expoExpl ∨ m.hardening = .sinhExpl → m.stressTol = m'.stressTol) (cabs : ℝ → ℝ) (d : ℕ) (b : Bool) :
    mccReturn cabs m' d b = mccReturn cabs m d b := by
  obtain ⟨h1, h2, h3, h4⟩ := h
  funext sl ev p q e
  unfold Verif.mccReturn
  rw [← h1]
  cases hh : m.hardening with
  | noHard => simp [← h2, ← h3, hK, hf]
  | expoExpl => simp [← h2, ← h3, hK, hf, Material.expLaw, ← h4 (by rw [hh]; simp), ← ht (.inl hh)]
  | sinhExpl => simp [← h2, ← h3, hK, hf, Material.sinhLaw, ← h4 (by rw [hh]; simp), ← ht (.inr hh)]
  | expoImpl => simp [← h2, ← h3, hK, hmu, ← h4 (by rw [hh]; simp)]
  | sinhImpl => simp [← h2, ← h3, hK, hmu, ← h4 (by rw [hh]; simp)]

/-- The friction stored for the boundaries; without viscosity the flow rule is irrelevant. -/
lemma mccMuI_same (hM : m.M = m'.M) (h : SameClay m m') (hK : ∀ d, m'.K d = m.K d) (he : m'.eMu = m.eMu)
    (ht : m.stressTol = m'.stressTol) (d : ℕ) (pc : Option ℝ) (ev ps qs hDev qt b : ℝ)
    (hfl : m.useDuvautLions = m'.useDuvautLions ∨ (b = 1 ∧ m.eMu * hDev = qs)) :
    mccMuI m' d pc ev ps qs hDev qt b = mccMuI m d pc ev ps qs hDev qt b := by
  obtain ⟨h1, h2, h3, h4⟩ := h
  have key : ∀ rr, (if m'.useDuvautLions = true then fdiv ((m.eMu * hDev - qt * (1 - b)) / b) rr else fdiv qs rr) =
      if m.useDuvautLions = true then fdiv ((m.eMu * hDev - qt * (1 - b)) / b) rr else fdiv qs rr := by
    intro rr
    rcases hfl with h | ⟨rfl, h⟩
    · rw [h]
    · simp [h]
  unfold mccMuI
  rw [← h1, ← hM, ← ht, ← h3, he]
  simp only [key]
  cases hh : m.hardening with
  | noHard => rfl
  | expoExpl => rfl
  | sinhExpl => rfl
  | expoImpl => simp [← h2, ← h3, hK, Material.expLaw, ← h4 (by rw [hh]; simp)]
  | sinhImpl => simp [← h2, ← h3, hK, Material.sinhLaw, ← h4 (by rw [hh]; simp)]

lemma plastModel_same (hE : 0 < m.E) (hnu : -1 < m.nu) (hqp : 0 < m.qPrefac) (h : SameModel mibf m m') (hb : m.useMibf = mibf) (hb' : m'.useMibf = mibf)
    (cabs : ℝ → ℝ) (dt : ℝ) (s : Svd d) (t : Trial d) (st : PState d) :
    plastModel cabs m' dt s t st = plastModel cabs m dt s t st := by
  obtain ⟨hl, hmu, hK, hd, he, hf⟩ := h.moduli
  obtain ⟨hel, hpl, -, -, -, hM, h⟩ := h
  have heq : m.eMu ≠ 0 := by
    rw [Material.eMu, Material.mu]
    have : 0 < 1 + m.nu := by linarith
    positivity
  have mcc : (m.plastic = .mcc ∨ m.plastic = .mccVisc) → m.M = m'.M → SameClay m m' → (m.plastic = .mccVisc → SameFlow m m') →
      (mibf = true ∨ m.hardening = .expoExpl ∨ m.hardening = .sinhExpl → m.stressTol = m'.stressTol) →
      plastMCC cabs m' dt s t st = plastMCC cabs m dt s t st := by
    intro hp hMM hc hfl ht
    unfold plastMCC
    rw [hc.mccReturn hK hf hmu (fun h => ht (.inr h)), ← hpl, ← hMM, hb, hb', he, hd, hK]
    dsimp only
    refine congrArg (Option.bind _) (funext fun x => ?_)
    obtain ⟨pc, r⟩ := x
    dsimp only
    by_cases hv : m.plastic = .mccVisc
    · have hfl := hfl hv
      simp only [if_pos hv, hfl.mccViscous hf]
      cases mibf with
      | false => simp
      | true => simp [mccMuI_same hMM hc hK he (ht (.inl rfl)) d pc _ _ _ _ _ _ (.inl hfl.2.2)]
    · simp only [if_neg hv]
      cases mibf with
      | false => simp
      | true =>
        have : ∀ x y : ℝ, m.eMu * (x / m.eMu - 1 * (x - y) / m.eMu) = y := by intro x y; field_simp; ring
        simp only [Option.bind_eq_bind, Option.bind_some,
          mccMuI_same hMM hc hK he (ht (.inl rfl)) d pc _ _ _ _ _ _ (.inr ⟨rfl, this _ _⟩)]
  unfold plastModel
  rw [← hpl]
  cases hp : m.plastic with
  | noPlasticity => simp [hel]
  | vm => rw [hp] at h; simp only at h; simp [plastVM, ← h, hd, he]
  | dp => rw [hp] at h; simp only at h; obtain ⟨h1, h2⟩ := h; simp [plastDP, ← h1, ← h2, hd, he, hK]
  | dpSoft =>
    rw [hp] at h; simp only at h; obtain ⟨h1, h2, h3, h4⟩ := h
    simp only [plastDPSoft, ← h1, ← h2, ← h3, ← h4, hd, he, hK]
  | vmVisc =>
    rw [hp] at h; simp only at h; obtain ⟨h1, h2, h3, h4, h5⟩ := h
    simp only [plastVMVisc, ← h1, ← h2, ← h3, ← h4, hd, he, hK, hf, h5.viscIncrement hf, ← h5.1]
  | dpVisc =>
    rw [hp] at h; simp only at h; obtain ⟨h1, h2, h3, h5⟩ := h
    simp only [plastDPVisc, ← h1, ← h2, ← h3, hd, he, hK, hf, h5.viscIncrement hf, ← h5.1, hb, hb']
  | mcc =>
    rw [hp] at h; simp only at h
    exact mcc (.inl hp) h.1 h.2.1 (fun h => by rw [hp] at h; cases h) h.2.2
  | mccVisc =>
    rw [hp] at h; simp only at h
    exact mcc (.inr hp) h.1 h.2.1 (fun _ => h.2.2.1) h.2.2.2
  | dpMui =>
    rw [hp] at h; simp only at h; obtain ⟨⟨h1, h2, h3⟩, h4, h5, h6⟩ := h
    have h3 : m'.facQ = m.facQ := h3.symm
    simp only [plastDPMui, ← h1, ← h2, h3, ← h4, ← h5, ← h6, hd, he, hK, hf]
  | mccMui =>
    rw [hp] at h; simp only at h; obtain ⟨⟨h1, h2, h3⟩, h4, h6⟩ := h
    have h3 : m'.facQ = m.facQ := h3.symm
    simp only
    unfold plastMCCMui
    rw [h4.mccReturn hK hf hmu (fun _ => h6)]
    obtain ⟨c1, c2, c3, c4⟩ := h4
    rw [← h1, ← h2, h3, ← h6, hd, he, hK, hf, ← c1, ← c3]
    cases hh : m.hardening with
    | noHard => rfl
    | expoExpl => rfl
    | sinhExpl => rfl
    | expoImpl => simp only [Material.expLaw, ← c2, ← c4 (by rw [hh]; simp)]
    | sinhImpl => simp only [Material.sinhLaw, hK, ← c2, ← c4 (by rw [hh]; simp)]

lemma plasticity_same (hE : 0 < m.E) (hnu : -1 < m.nu) (hqp : 0 < m.qPrefac) (h : SameModel mibf m m') (hb : m.useMibf = mibf) (hb' : m'.useMibf = mibf)
    (cabs : ℝ → ℝ) (svd : Matrix (Fin d) (Fin d) ℝ → Svd d) (dt : ℝ) (q : Particle d ℝ) (e : Bool) :
    plasticity cabs svd m' dt q e = plasticity cabs svd m dt q e := by
  have ht : ∀ (s : Svd d) hh F, newTau m' s hh F = newTau m s hh F := by
    intro s hh F
    rw [newTau, newTau, h.moduli.1, h.moduli.2.1, h.1]
  simp only [plasticity, plastModel_same hE hnu hqp h hb hb', ht]

end

section run
variable {d : ℕ} {R : Setup (d + 2)} {m' : Material}

/-- **C110** Changing parameters that do not belong to the chosen model changes nothing: the run takes the same course and has the same
outcome. -/
theorem C110_run (hE : 0 < R.m.E) (hnu : -1 < R.m.nu) (hqp : 0 < R.m.qPrefac) (hb : R.m.useMibf = R.S.P.useMibf) (hb' : m'.useMibf = R.S.P.useMibf)
    (h : SameModel R.S.P.useMibf R.m m') (i e : Bool) (fuel : ℕ) (s : LoopState (d + 2) (World (d + 2))) :
    runProgram { R with m := m' } i e fuel s = runProgram R i e fuel s := by
  have hu : ∀ dt q, plasticUpdate { R with m := m' } dt q = plasticUpdate R dt q := by
    intro dt q
    simp only [plasticUpdate, plasticity_same hE hnu hqp h hb hb']
  have hp : physics { R with m := m' } = physics R := by
    have h1 : ∀ dt g, g2pFull { R with m := m' } dt g = g2pFull R dt g := by
      intro dt g; funext e ps
      simp only [g2pFull, show g2pFullParticle { R with m := m' } dt g.size e = g2pFullParticle R dt g.size e from
        funext fun x => by simp only [g2pFullParticle, hu]]
    have h2 : ∀ dt g, deformFull { R with m := m' } dt g = deformFull R dt g := by
      intro dt g; funext v ps
      simp only [deformFull, show deformFullParticle { R with m := m' } dt g.size v = deformFullParticle R dt g.size v from
        funext fun x => by simp only [deformFullParticle, hu]]
    unfold physics
    congr 1
    funext w dt g t n
    simp only [physStep, h1, h2]
  have hf : fillMuI m' R.S.P.useMibf s.w = fillMuI R.m R.S.P.useMibf s.w := by
    unfold fillMuI
    obtain ⟨-, hpl, -, -, -, hM, h⟩ := h
    cases hm : R.S.P.useMibf with
    | false => rfl
    | true =>
      rw [hm] at hM
      have hM := hM rfl
      simp only [if_true, ← hpl]
      by_cases hp : R.m.plastic = .dpMui ∨ R.m.plastic = .mccMui
      · have : R.m.mu1 = m'.mu1 := by
          rcases hp with hp | hp <;> rw [hp] at h <;> exact h.1.1
        simp only [if_pos hp, this]
      · push Not at hp
        simp only [if_neg (not_or.2 hp), hM hp.1 hp.2]
  unfold runProgram
  simp only [hp, hf, ← h.1, ← h.2.1]

/-- **C110** The particle files have the same contents, too. -/
theorem C110_files {m m' : Material} {mibf : Bool} (h : SameModel mibf m m') (ps : List (Particle d ℝ)) :
    writePly (particleGroups m' mibf ps) = writePly (particleGroups m mibf ps) := by
  obtain ⟨-, hpl, -, -, hq, -⟩ := h
  simp only [particleGroups, hpl, hq]

end run

namespace RunEx

/-- The von Mises material of the examples with other values for everything that von Mises does not have. -/
example (musl : Bool) : ∃ m' r, m'.M ≠ (setup musl 3 .vm).m.M ∧ m'.viscTime ≠ (setup musl 3 .vm).m.viscTime ∧
    m'.hardening ≠ (setup musl 3 .vm).m.hardening ∧
    runProgram (d := 0) { setup musl 3 .vm with m := m' } true false 30 (start pair 0) = .finished r := by
  obtain ⟨r, hr, -⟩ := rest_run musl .vm
  refine ⟨{ Ex.mat .vm with M := 27, viscTime := 13, hardening := .sinhImpl, mu1 := -1, p0 := 0, useDuvautLions := true }, r, ?_, ?_, ?_, ?_⟩
  · norm_num [setup, Ex.mat]
  · norm_num [setup, Ex.mat]
  · simp [setup, Ex.mat]
  · rw [C110_run (R := setup musl 3 .vm) (by norm_num [setup, Ex.mat]) (by norm_num [setup, Ex.mat]) (by norm_num [setup, Ex.mat]) rfl rfl
      (by simp [SameModel, setup, Ex.mat, mkTransferParams])]
    exact hr

/-- The mu(I) material of the examples with grains twice as large, four times as dense and a reference number four times as large. -/
example (musl : Bool) : ∃ m' r, m'.grainDiameter = 2 * (setup musl 3 .dpMui).m.grainDiameter ∧
    runProgram (d := 0) { setup musl 3 .dpMui with m := m' } true false 30 (start pair 0) = .finished r := by
  obtain ⟨r, hr, -⟩ := rest_run musl .dpMui
  refine ⟨{ Ex.mat .dpMui with grainDiameter := 2 * (Ex.mat .dpMui).grainDiameter, rhoS := 2 ^ 2, iRef := 4 }, r, rfl, ?_⟩
  rw [C110_run (R := setup musl 3 .dpMui) (by norm_num [setup, Ex.mat]) (by norm_num [setup, Ex.mat]) (by norm_num [setup, Ex.mat]) rfl rfl
      (by
        simp only [SameModel, SameInertial, setup, Ex.mat, mkTransferParams,
          Real.sqrt_sq (by norm_num : (0 : ℝ) ≤ 2)]
        norm_num)]
  exact hr

end RunEx
end Verif.Props
