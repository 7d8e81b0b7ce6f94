import Verif.Props.Kept

set_option linter.unusedSectionVars false
set_option linter.unusedSimpArgs false
set_option linter.unusedVariables false

/-!
# C129: what a run remembers of a particle
-/

namespace Verif.Props
open Verif Matrix
noncomputable section

variable {d : ℕ}

/-! ### Specification -/

/-- The accumulated plastic strains the material model reads: the shear strain if the strength softens with it, the
volumetric strain if the cap hardens (or the tensile limit softens) with it, the volume correction of the Drucker-Prager
models with `use_pradhana`; and the friction coefficient if `mu`. -/
def memory (m : Material) (mu : Bool) : Keep where
  dev := match m.plastic with
    | .dpSoft | .vmVisc => decide (m.xi ≠ 0)
    | _ => false
  vol := match m.plastic with
    | .vmVisc => decide (m.xi ≠ 0)
    | .mcc | .mccVisc | .mccMui => decide (m.hardening ≠ .noHard)
    | _ => false
  corr := match m.plastic with
    | .dpSoft | .dpVisc | .dpMui => m.usePradhana
    | _ => false
  mu := mu

/-! ### one update -/

section update
variable {m : Material} {cabs : ℝ → ℝ} {svd : Matrix (Fin d) (Fin d) ℝ → Svd d} {dt : ℝ} {q q' : Particle d ℝ}
  {mu : Bool}

/-- `kept` for the state within an update. -/
def keptP (κ : Keep) (st : PState d) : PState d := { st with q := kept κ st.q }

lemma mccMui_memory (hh : m.hardening ≠ .noHard) {s : Svd d} {t : Trial d} {h : Fin d → ℝ} {g v i a c : ℝ} {e : Bool} {n : ℕ} :
    (plastMCCMui cabs m dt s t ⟨{ q with deltaGamma := g, viscosity := v, muI := if mu then q.muI else i, epsPlDev := a, epsPlVolPradhana := c },
      h, n, e⟩).map (keptP ⟨false, true, false, mu⟩) =
    (plastMCCMui cabs m dt s t ⟨q, h, n, e⟩).map (keptP ⟨false, true, false, mu⟩) := by
  cases mu <;> simp only [plastMCCMui, Option.bind_eq_bind, if_true, Bool.false_eq_true, if_false] <;>
  cases mccReturn cabs m d false m.mu1 q.epsPlVol (-m.K d * t.trace) (m.eMu * t.norm) e with
  | none => rfl
  | some r =>
    obtain ⟨pc, r⟩ := r
    simp only [Option.bind_some]
    by_cases hd : r.did = true
    · simp only [if_pos hd]
      by_cases hc : m.eMu * t.norm > r.q + m.stressTol
      · simp only [if_pos hc]
        cases m.hardening
        all_goals rcases pc with _ | pc
        all_goals simp only [Option.bind_some, Option.bind_none, Option.map_none]
        all_goals
          generalize fsqrt (r.p + _ + m.stressTol) = o
          rcases o with _ | rp
          · rfl
          simp only [Option.bind_some]
          generalize fsqrt _ = o
          rcases o with _ | rr
          · rfl
          simp only [Option.bind_some]
          generalize fdiv _ _ = o
          rcases o with _ | w
          · rfl
          · rfl
      · simp only [if_neg hc]
        rfl
    · simp only [if_neg hd]
      rfl

lemma mcc_memory {κ : Keep} (hκ : κ = ⟨false, decide (m.hardening ≠ .noHard), false, mu⟩) {s : Svd d} {t : Trial d}
    {h : Fin d → ℝ} {g v i a b c : ℝ} {e : Bool} {n : ℕ} (hb : m.hardening ≠ .noHard → b = q.epsPlVol) :
    (plastMCC cabs m dt s t
      ⟨{ q with deltaGamma := g, viscosity := v, muI := if mu then q.muI else i, epsPlDev := a, epsPlVol := b, epsPlVolPradhana := c },
        h, n, e⟩).map (keptP κ) =
    (plastMCC cabs m dt s t ⟨q, h, n, e⟩).map (keptP κ) := by
  have hr : mccReturn cabs m d true m.M b (-m.K d * t.trace) (m.eMu * t.norm) e =
      mccReturn cabs m d true m.M q.epsPlVol (-m.K d * t.trace) (m.eMu * t.norm) e := by
    by_cases hh : m.hardening = .noHard
    · simp only [mccReturn, hh]
    · rw [hb hh]
  have hmu : ∀ pc x1 x2 x3 x4 x5 x6, mccMuI m d pc (b + x1) x2 x3 x4 x5 x6 = mccMuI m d pc (q.epsPlVol + x1) x2 x3 x4 x5 x6 := by
    intro pc x1 x2 x3 x4 x5 x6
    by_cases hh : m.hardening = .noHard
    · simp only [mccMuI, hh]
    · rw [hb hh]
  subst hκ
  have fin : ∀ (o o' : PState d), keptP ⟨false, false, false, mu⟩ o' = keptP ⟨false, false, false, mu⟩ o →
      (m.hardening ≠ .noHard → o'.q.epsPlVol = o.q.epsPlVol) →
      keptP ⟨false, decide (m.hardening ≠ .noHard), false, mu⟩ o' = keptP ⟨false, decide (m.hardening ≠ .noHard), false, mu⟩ o := by
    rintro ⟨o, _, _, _⟩ ⟨o', _, _, _⟩ h1 h2
    by_cases hh : m.hardening = .noHard
    · simpa [hh] using h1
    · have h2 := h2 hh
      simp only [keptP, kept, PState.mk.injEq, Particle.mk.injEq, Bool.false_eq_true, if_false] at h1 h2 ⊢
      simp only [ne_eq, hh, not_false_iff, decide_true, if_true, h2]
      tauto
  cases mu <;> cases hm : m.useMibf <;>
    simp only [plastMCC, Option.bind_eq_bind, hm, Bool.false_eq_true, if_false, if_true, hr] <;>
    cases mccReturn cabs m d true m.M q.epsPlVol (-m.K d * t.trace) (m.eMu * t.norm) e with
    | none => rfl
    | some r =>
      simp only [Option.bind_some]
      by_cases hd : r.2.did = true
      · simp only [if_pos hd]
        by_cases hv : m.plastic = .mccVisc
        · simp only [if_pos hv]
          generalize mccViscous m dt (m.eMu * t.norm) r.2.q r.2.exit = o
          rcases o with _ | o
          · rfl
          · simp only [Option.bind_some, hmu]
            first
              | (refine congrArg some (fin _ _ rfl fun hh => ?_)
                 rw [hb hh])
              | (generalize mccMuI m d _ _ _ _ _ _ _ = o
                 rcases o with _ | o
                 · rfl
                 · refine congrArg some (fin _ _ rfl fun hh => ?_)
                   rw [hb hh])
        · simp only [if_neg hv, hmu]
          first
            | (refine congrArg some (fin _ _ rfl fun hh => ?_)
               rw [hb hh])
            | (generalize mccMuI m d _ _ _ _ _ _ _ = o
               rcases o with _ | o
               · rfl
               · refine congrArg some (fin _ _ rfl fun hh => ?_)
                 rw [hb hh])
      · simp only [if_neg hd]
        exact congrArg some (fin _ _ rfl fun hh => hb hh)

lemma lift_memory {κ : Keep} {s : Svd d} {o o' : Option (PState d)} (h : o'.map (keptP κ) = o.map (keptP κ)) :
    ((o'.bind fun st => some { st with q := { st.q with tau := newTau m s st.hencky st.q.F } }).map fun st =>
        (st.q, st.exit)).map (Prod.map (kept κ) id) =
      ((o.bind fun st => some { st with q := { st.q with tau := newTau m s st.hencky st.q.F } }).map fun st =>
        (st.q, st.exit)).map (Prod.map (kept κ) id) := by
  rcases map_eq_cases h with ⟨rfl, rfl⟩ | ⟨st', st, rfl, rfl, hk⟩
  · rfl
  obtain ⟨q, h1, n1, e1⟩ := st
  obtain ⟨q', h2, n2, e2⟩ := st'
  simp only [keptP, PState.mk.injEq] at hk
  obtain ⟨hq, rfl, rfl, rfl⟩ := hk
  obtain ⟨_, _, _, _, _, _, rfl⟩ := kept_fields hq
  obtain ⟨a, b, c, d⟩ := κ
  cases a <;> cases b <;> cases c <;> cases d <;> rfl

set_option maxHeartbeats 1600000 in
-- nine models, with and without the friction coefficient
lemma updated_memory (h : kept (memory m mu) q' = kept (memory m mu) q) :
    (updated cabs svd m dt q').map (Prod.map (kept (memory m mu)) id) =
      (updated cabs svd m dt q).map (Prod.map (kept (memory m mu)) id) := by
  obtain ⟨g, v, i, a, b, c, rfl⟩ := kept_fields h
  clear h
  have hmu : (memory m mu).mu = mu := rfl
  rw [hmu]
  cases hp : m.plastic
  all_goals simp only [updated, plasticity, plastModel, hp, memory, Option.bind_eq_bind]
  case noPlasticity =>
    cases mu
    all_goals
      simp only [Bool.false_eq_true, if_false, if_true]
      split_ifs <;> simp [kept, Prod.map]
  case vm =>
    cases mu
    all_goals
      simp only [Bool.false_eq_true, if_false, if_true]
      simp only [plastVM]
      split_ifs <;> simp [kept, Prod.map]
  case dp =>
    cases mu
    all_goals
      simp only [Bool.false_eq_true, if_false, if_true]
      simp only [plastDP]
      split_ifs <;> simp [kept, Prod.map]
  case dpSoft =>
    cases mu
    all_goals
      simp only [Bool.false_eq_true, if_false, if_true]
      simp only [plastDPSoft]
      by_cases hx : m.xi = 0 <;> cases hu : m.usePradhana <;> simp only [hx, ne_eq, not_true, not_false_iff, decide_true, decide_false, Bool.false_eq_true, if_false, if_true, neg_zero, zero_mul] <;> split_ifs <;> simp [kept, Prod.map]
  case dpMui =>
    cases mu
    all_goals
      simp only [Bool.false_eq_true, if_false, if_true]
      simp only [plastDPMui]
      cases hu : m.usePradhana <;> simp only [Bool.false_eq_true, if_false, if_true] <;> split_ifs <;> simp [kept, Prod.map]
  case dpVisc =>
    cases mu
    all_goals
      simp only [Bool.false_eq_true, if_false, if_true]
      simp only [plastDPVisc]
      cases hu : m.usePradhana <;> cases hm : m.useMibf <;> simp only [Bool.false_eq_true, if_false, if_true] <;>
        split_ifs <;> first
          | (simp [kept, Prod.map]; done)
          | (generalize viscIncrement m dt _ _ _ _ _ _ = o; cases o <;> simp [kept, Prod.map])
  case vmVisc =>
    cases mu
    all_goals
      simp only [Bool.false_eq_true, if_false, if_true]
      simp only [plastVMVisc]
      by_cases hx : m.xi = 0 <;> simp only [hx, ne_eq, not_true, not_false_iff, decide_true, decide_false, Bool.false_eq_true,
        if_false, if_true, neg_zero, zero_mul] <;>
        split_ifs <;> first
          | (simp [kept, Prod.map]; done)
          | (generalize viscIncrement m dt _ _ _ _ _ _ = o; cases o <;> simp [kept, Prod.map])
  case mccMui =>
    by_cases hh : m.hardening = .noHard
    · simp only [plastMCCMui, mccReturn, hh, Bool.false_eq_true, if_false, Option.bind_eq_bind, Option.bind_none, Option.map_none]
    · refine lift_memory ?_
      simp only [ne_eq, hh, not_false_iff, decide_true, if_true, Bool.false_eq_true, if_false]
      exact mccMui_memory hh
  case mcc =>
    refine lift_memory (mcc_memory rfl fun hh => ?_)
    simp [hh]
  case mccVisc =>
    refine lift_memory (mcc_memory rfl fun hh => ?_)
    simp [hh]

end update

/-! ### whole runs -/

section run
variable {R : Setup (d + 2)} {s s' : LoopState (d + 2) (World (d + 2))} {i e : Bool} {fuel : ℕ}

/-- **C129** Two runs with the same set-up. If they start from states that agree except for the saved rate, viscosity and
friction coefficient of the particles and the accumulated plastic strains that the material model does not read (see
`memory`), then they end in the same way, after the same steps, with the same files, and these and the final states again
agree with the same exceptions; with `use_mibf` also the friction coefficients agree. -/
theorem C129_run (hR : ∀ k ps, (R.sched k ps).flatten.Perm ps) (ha : accepted i R.m.elastic R.m.plastic e = true)
    (h : s'.map (keptWorld (memory R.m false)) id = s.map (keptWorld (memory R.m false)) id)
    (ho : s'.out = s.out) :
    (runProgram R i e fuel s').map (keptWorld (memory R.m R.S.P.useMibf)) id =
      (runProgram R i e fuel s).map (keptWorld (memory R.m R.S.P.useMibf)) id := by
  have H : ∀ dt, KeptSame (memory R.m R.S.P.useMibf) R R dt := fun dt q q' h => updated_memory h
  rw [run_kept hR id H ha, run_kept hR id H ha]
  obtain ⟨w, t, f, n, g, out⟩ := s
  obtain ⟨w', t', f', n', g', out'⟩ := s'
  simp only [LoopState.map, LoopState.mk.injEq, id_eq] at h ho
  obtain ⟨h1, rfl, rfl, rfl, rfl, -⟩ := h
  subst ho
  have hw : keptWorld (memory R.m R.S.P.useMibf) (fillMuI R.m R.S.P.useMibf w') =
      keptWorld (memory R.m R.S.P.useMibf) (fillMuI R.m R.S.P.useMibf w) := by
    cases hu : R.S.P.useMibf
    · exact h1
    · have := congrArg (fun w : World (d + 2) => ({ w with ps := w.ps.map fun p =>
        { p with muI := if R.m.plastic = .dpMui ∨ R.m.plastic = .mccMui then R.m.mu1 else R.m.M } } : World (d + 2))) h1
      simpa [keptWorld, fillMuI, kept, memory, Function.comp_def] using this
  have hs : (startState R.C ⟨fillMuI R.m R.S.P.useMibf w', t', f', n', g', out'⟩).map
        (keptWorld (memory R.m R.S.P.useMibf)) id =
      (startState R.C ⟨fillMuI R.m R.S.P.useMibf w, t', f', n', g', out'⟩).map
        (keptWorld (memory R.m R.S.P.useMibf)) id := by
    unfold startState
    split_ifs <;> simp [LoopState.map, hw, Event.map]
  rw [hs]

end run
end
end Verif.Props
