import Verif.Props.PeriodicStep

set_option linter.unusedSectionVars false
set_option linter.unusedSimpArgs false
set_option linter.unusedVariables false

/-! # Whole runs in periodic domains: memory safety and completion (C68) -/

namespace Verif.Props
open Verif Matrix

section grid
variable {K : Type*} [Field K] [LinearOrder K] [IsStrictOrderedRing K] [FloorRing K] {d : ℕ} {dx : K}
  {L : Fin (d + 2) → K} {ps : List (Particle (d + 2) K)}

/-- The particles are in the part of space covered by the grid of a periodic simulation with four extra cells: at
most four cells outside of the domain in the first and third direction and above, not at all below. -/
def Covered (dx : K) (L : Fin (d + 2) → K) (ps : List (Particle (d + 2) K)) : Prop :=
  ∀ p ∈ ps, ∀ a, (if a = 1 then 0 else -(4 * dx)) ≤ p.x a ∧ p.x a < L a + 4 * dx

/-- Some particle is below the domain, more than four cells outside at one of the other lower sides, or five
cells or more at one of the upper sides. -/
def Beyond (dx : K) (L : Fin (d + 2) → K) (ps : List (Particle (d + 2) K)) : Prop :=
  ∃ p ∈ ps, ∃ a, p.x a < (if a = 1 then 0 else -(4 * dx)) ∨ L a + 5 * dx ≤ p.x a

lemma covered_good (h0 : 0 < dx) (hL : ∀ a, 0 ≤ L a) (hd : Covered dx L ps) {g : Axes (d + 2) K}
    (hg : remeshPeriodic dx L 4 = some g) : GoodGrid dx g (ps ++ ghosts dx (L 0) 4 ps) := by
  obtain ⟨g', hg', hax⟩ := periodic_grid (d := d) h0 hL
  obtain rfl := Option.some.inj (hg.symm.trans hg')
  have key : ∀ x : Fin (d + 2) → K, (∀ a, (if a = 1 then 0 else -(4 * dx)) ≤ x a ∧ x a < L a + 4 * dx) →
      ∀ a, InsideAxis dx (g a) (x a) := by
    intro x hx a
    obtain ⟨_, h2, last, h3, h4, _⟩ := hax a
    refine ⟨_, last, h2, h3, ?_⟩
    obtain ⟨h5, h6⟩ := hx a
    have hv : (a.val = 1) ↔ a = 1 := ⟨fun h => Fin.ext (by rw [h]; rfl), fun h => by rw [h]; rfl⟩
    simp only [hv]
    split_ifs at h5 ⊢ <;> constructor <;> linarith
  refine ⟨h0, fun a => (hax a).1, fun q hq => ?_⟩
  rcases List.mem_append.mp hq with hq | hq
  · exact key _ (hd q hq)
  · obtain ⟨p, hp, hpq⟩ := List.mem_filterMap.mp hq
    obtain ⟨y, hy, rfl⟩ := Option.map_eq_some_iff.mp hpq
    refine key _ fun a => ?_
    have hpa := hd p hp a
    simp only [ghostPos] at hy
    push_cast at hy
    split_ifs at hy with h1 h2
    · have := Option.some.inj hy
      by_cases ha : a = 0
      · subst ha
        simp only [← this, Function.update_self, zero_ne_one, if_false]
        constructor <;> linarith [h1.1, h1.2, hL 0]
      · simp only [← this, Function.update_of_ne ha]
        exact hpa
    · have := Option.some.inj hy
      by_cases ha : a = 0
      · subst ha
        simp only [← this, Function.update_self, zero_ne_one, if_false]
        constructor <;> linarith [h2.1, h2.2, hL 0]
      · simp only [← this, Function.update_of_ne ha]
        exact hpa

lemma beyond_bad (h0 : 0 < dx) (hL : ∀ a, 0 ≤ L a) (hd : Beyond dx L ps) {g : Axes (d + 2) K}
    (hg : remeshPeriodic dx L 4 = some g) : ∃ p ∈ ps, ∃ a, ¬ InsideAxis dx (g a) (p.x a) := by
  obtain ⟨g', hg', hax⟩ := periodic_grid (d := d) h0 hL
  obtain rfl := Option.some.inj (hg.symm.trans hg')
  obtain ⟨p, hp, a, h⟩ := hd
  refine ⟨p, hp, a, ?_⟩
  rintro ⟨f, l, hf, hl, h1, h2⟩
  obtain ⟨_, h3, last, h4, _, h5⟩ := hax a
  rw [h3] at hf
  rw [h4] at hl
  obtain rfl := Option.some.inj hf
  obtain rfl := Option.some.inj hl
  have hv : (a.val = 1) ↔ a = 1 := ⟨fun h => Fin.ext (by rw [h]; rfl), fun h => by rw [h]; rfl⟩
  simp only [hv] at h1
  rcases h with h | h
  · split_ifs at h h1 <;> linarith
  · linarith

end grid

section run
variable {d : ℕ} {R : Setup (d + 2)} {i e : Bool} {fuel : ℕ} {s : LoopState (d + 2) (World (d + 2))}

lemma loop_reach {d : ℕ} {W : Type*} {C : TimeConfig d} {ph : Physics d W} {gf : Fin d → ℝ} {s0 s1 : LoopState d W}
    {k : ℕ} (h : Reach C ph gf s0 k s1) : ∀ fuel, loop C ph gf (k + fuel) s0 = loop C ph gf fuel s1 := by
  induction h with
  | start => intro fuel; rw [zero_add]
  | @next k s1 s2 hr hlt hb ih =>
    intro fuel
    rw [add_assoc, ih, add_comm 1 fuel]
    conv_lhs => unfold loop
    rw [if_pos hlt, hb]

/-- The grid of a periodic run. -/
lemma reach_periodic (hpbc : R.S.pbc = true) (hmi : R.S.P.useMibf = false) (hfresh : s.step = 0)
    {k : ℕ} {s1 : LoopState (d + 2) (World (d + 2))}
    (hr : Reach R.C (physics R) s.gravity (begin R s) k s1) :
    s1.step = k ∧ s1.w.ps.length = s.w.ps.length ∧ (0 < k → remeshPeriodic R.S.P.dx R.S.L 4 = some s1.w.g) := by
  have hbeg : (begin R s).w = s.w := by rw [begin_w, fillMuI, hmi]; simp
  induction hr with
  | start => exact ⟨by rw [begin_step, hfresh], by rw [hbeg], fun h => absurd h (lt_irrefl 0)⟩
  | @next k s1 s2 hr hlt hb ih =>
    obtain ⟨i1, i2, i3⟩ := ih
    rcases loopBody_cases (C := R.C) (ph := physics R) (gf := s.gravity) s1 with h | ⟨_, _, _, _, _, h⟩ |
      ⟨dt, g, w, hu, hmin, -, hg, hst, h⟩
    · rw [h] at hb; cases hb
    · rw [h] at hb; cases hb
    simp only at h
    rw [h] at hb
    split_ifs at hb
    injection hb with hb
    rw [← hb, endOfFrame_w, endOfFrame_step]
    refine ⟨by rw [← i1], (physStep_forall₂ hst).length_eq.symm.trans i2, fun _ => ?_⟩
    obtain ⟨fr', hadv⟩ := physStep_advance hst
    simp only [advanceStep, Option.bind_eq_bind, Option.bind_eq_some_iff] at hadv
    obtain ⟨bg, hbg, ps, -, hσ⟩ := hadv
    injection hσ with hσ
    injection hσ with _ _ hgg _
    rw [← hgg]
    simp only [chooseGrid, hpbc, if_true] at hbg
    by_cases h0 : s1.step = 0
    · rw [if_pos h0, Option.map_eq_some_iff] at hbg
      obtain ⟨r, hr, rfl⟩ := hbg
      exact hr
    · rw [if_neg h0] at hbg
      rw [← Option.some.inj hbg]
      exact i3 (by omega)

/-- **C68** In a fresh periodic simulation with at least one particle, undefined behaviour (access outside of the
grid, undefined conversion, 0/0) can only occur if at the beginning of some step a particle is outside of the part
of space covered by the grid. -/
theorem C68_only_outside {deg : Deg} {dx fr m vol : ℝ}
    (hS : R.S.P = mkTransferParams deg dx fr false m vol) (hdx : 0 < dx) (hL : ∀ a, 0 ≤ R.S.L a)
    (hpbc : R.S.pbc = true) (hfresh : s.step = 0) (hne : s.w.ps ≠ [])
    (hsched : ∀ k ps, (R.sched k ps).flatten.Perm ps) (hmin : 0 < R.C.minDt) (hrob : Robust R)
    (h : runProgram R i e fuel s = .ub) :
    ∃ k s1, Reach R.C (physics R) s.gravity (begin R s) k s1 ∧ s1.frame < R.C.endFrame ∧
      ¬ Covered dx R.S.L s1.w.ps := by
  have hPdx : R.S.P.dx = dx := by rw [hS]; rfl
  have hP1 : R.S.P.oneOverDx = 1 / dx := by rw [hS]; rfl
  have hPdeg : R.S.P.deg = deg := by rw [hS]; rfl
  have hmi : R.S.P.useMibf = false := by rw [hS]; rfl
  simp only [runProgram] at h
  split_ifs at h with ha
  rw [simulate_eq ha] at h
  obtain ⟨k, s1, hr, hlt, hbad⟩ := loop_ub fuel 0 _ .start h
  refine ⟨k, s1, hr, hlt, fun hcov => ?_⟩
  obtain ⟨i1, i2, i3⟩ := reach_periodic hpbc hmi hfresh hr
  rcases hbad with hbad | ⟨dt, g, hu, hbad⟩
  · simp [physics] at hbad
    rw [hbad] at i2
    exact hne (List.length_eq_zero_iff.mp i2.symm)
  have hdt : 0 < dt := by
    simp only [updateDt, Option.map_eq_some_iff, Prod.mk.injEq] at hu
    obtain ⟨sp, _, hdt, _⟩ := hu
    exact lt_of_lt_of_le hmin (hdt ▸ chooseDt_ge)
  obtain ⟨G, hG, -⟩ := periodic_grid (d := d) hdx hL
  have hbg : chooseGrid R.S ⟨s1.w.ps, s1.w.box, s1.w.g, s1.step⟩ = some (s1.w.box, G) := by
    simp only [chooseGrid, hpbc, if_true, hPdx]
    split_ifs with hz
    · rw [hG]; rfl
    · have := i3 (by omega)
      rw [hPdx, hG] at this
      rw [Option.some.inj this]
  have hall := covered_good hdx hL hcov hG
  have hreal : GoodGrid dx G s1.w.ps :=
    ⟨hall.dx_pos, hall.uniform, fun p hp => hall.inside p (List.mem_append_left _ hp)⟩
  obtain ⟨r, hr⟩ := physStep_isSome (w := s1.w) (grav := g) (time := s1.time) (n := s1.step)
    (robust_defined hrob hdt) fun bc => by
      obtain ⟨F, hF, -⟩ := stepOnGrid_ghosts (S := R.S) (dt := dt) (grav := g) (bc := bc)
        (ghs := ghosts dx (R.S.L 0) 4 s1.w.ps)
        (threads := R.sched s1.step (s1.w.ps ++ ghosts dx (R.S.L 0) 4 s1.w.ps)) hPdeg hP1 hmi hreal hall (hsched _ _)
        (plastTotal_keeps R dt)
      simp only [advanceStep, hbg, hpbc, if_true, hPdx, Option.bind_eq_bind, Option.bind_some, hF]
      exact ⟨_, rfl⟩
  have : physStep R s1.w dt g s1.time s1.step = none := hbad
  rw [hr] at this
  cases this

/-- **C68** Conversely a particle below the domain, or further outside than the grid, makes the next step access
memory outside of the grid. -/
theorem C68_outside {deg : Deg} {dx fr m vol : ℝ}
    (hS : R.S.P = mkTransferParams deg dx fr false m vol) (hdx : 0 < dx) (hL : ∀ a, 0 ≤ R.S.L a)
    (hpbc : R.S.pbc = true) (hfresh : s.step = 0)
    (hacc : accepted i R.m.elastic R.m.plastic e = true) {k : ℕ} {s1 : LoopState (d + 2) (World (d + 2))}
    (hr : Reach R.C (physics R) s.gravity (begin R s) k s1) (hlt : s1.frame < R.C.endFrame) (hk : k < fuel)
    (hb : Beyond dx R.S.L s1.w.ps) : runProgram R i e fuel s = .ub := by
  have hPdx : R.S.P.dx = dx := by rw [hS]; rfl
  have hP1 : R.S.P.oneOverDx = 1 / dx := by rw [hS]; rfl
  have hmi : R.S.P.useMibf = false := by rw [hS]; rfl
  have hnone : ∀ dt g r, physStep R s1.w dt g s1.time s1.step ≠ some r := by
    intro dt g r h
    obtain ⟨i1, i2, i3⟩ := reach_periodic hpbc hmi hfresh hr
    obtain ⟨G, hG, hax⟩ := periodic_grid (d := d) hdx hL
    obtain ⟨fr', hadv⟩ := physStep_advance (w' := r.1) (ex := r.2) h
    simp only [advanceStep, stepOnGrid, Option.bind_eq_bind, Option.bind_eq_some_iff, hmi, Bool.false_eq_true,
      false_and, if_false, Option.bind_some] at hadv
    obtain ⟨bg, hbg, ps, ⟨arr, -, qs, hqs, -⟩, -⟩ := hadv
    have hbG : bg.2 = G := by
      simp only [chooseGrid, hpbc, if_true, hPdx] at hbg
      split_ifs at hbg with hz
      · rw [hG] at hbg; rw [← Option.some.inj hbg]
      · have := i3 (by omega)
        rw [hPdx, hG] at this
        rw [← Option.some.inj hbg, Option.some.inj this]
    rw [hbG] at hqs
    obtain ⟨p, hp, a, hna⟩ := beyond_bad hdx hL hb hG
    apply hna
    simp only [G2P, Option.bind_eq_bind, Option.bind_eq_some_iff] at hqs
    obtain ⟨ss, hss, -⟩ := hqs
    suffices h : (stencilG2P R.S.P.deg (1 / dx) G p.x).isSome from
      (stencilG2P_isSome_iff (deg := R.S.P.deg) hdx fun a => (hax a).1).mp h a
    have := withStencils_forall₂ hss
    obtain ⟨⟨p', st⟩, hmem, hps⟩ : ∃ x ∈ ss, x.1 = p := by
      obtain ⟨k, hk, rfl⟩ := List.mem_iff_getElem.mp hp
      have hk' : k < ss.length := by rw [← this.length_eq]; exact hk
      exact ⟨ss[k], List.getElem_mem _, by simpa using List.forall₂_iff_get.mp this |>.2 k hk hk'⟩
    obtain ⟨a', ha', hsome⟩ := mapM_mem hss _ hmem
    simp only [Option.map_eq_some_iff, Prod.mk.injEq] at hsome
    obtain ⟨st', hst, rfl, rfl⟩ := hsome
    simp only at hps
    subst hps
    rw [← hP1, hst]; rfl
  have hfuel : ∃ f, fuel = k + (f + 1) := ⟨fuel - k - 1, by omega⟩
  obtain ⟨f, rfl⟩ := hfuel
  have hrun : runProgram R i e (k + (f + 1)) s = loop R.C (physics R) s.gravity (k + (f + 1)) (begin R s) := by
    rw [runProgram, if_pos hacc, simulate_eq hacc]; rfl
  rw [hrun, loop_reach hr]
  unfold loop
  rw [if_pos hlt]
  rcases loopBody_cases (C := R.C) (ph := physics R) (gf := s.gravity) s1 with h | ⟨_, _, _, _, h, _⟩ |
    ⟨dt, g, w, hu, hmin, -, hg, hst, h⟩
  · rw [h]
  · exact absurd h (hnone _ _ _)
  · exact absurd hst (hnone _ _ _)

/-- **C68** Total correctness in periodic domains, for the elastic and the rate-independent models: a fresh, accepted
simulation whose particles stay in the part of space covered by the grid ends normally, having written exactly the
files of all frames at their nominal times. -/
theorem C68_completes {deg : Deg} {dx fr m vol : ℝ}
    (hS : R.S.P = mkTransferParams deg dx fr false m vol) (hdx : 0 < dx) (hL : ∀ a, 0 ≤ R.S.L a)
    (hpbc : R.S.pbc = true) (hfresh : s.step = 0) (hne : s.w.ps ≠ [])
    (hsched : ∀ k ps, (R.sched k ps).flatten.Perm ps) (hrob : Robust R) (hnf : NeverFails R.m)
    (hacc : accepted i R.m.elastic R.m.plastic e = true)
    (hmin : 0 < R.C.minDt) (hfuel : 1 ≤ fuel) (hN : R.C.endFrame / R.C.fps ≤ fuel * R.C.minDt)
    (hfd : R.C.minDt * (11 / 10) ≤ 1 / R.C.fps) (hsave : R.C.saveSim = true) (hend : 1 ≤ R.C.endFrame)
    (hcov : ∀ k s1, Reach R.C (physics R) s.gravity (begin R s) k s1 → s1.frame < R.C.endFrame →
      Covered dx R.S.L s1.w.ps) :
    ∃ r, runProgram R i e fuel s = .finished r ∧ r.frame = R.C.endFrame ∧
      ∃ (t : ℕ → ℝ) (w : ℕ → World (d + 2)),
      r.out = s.out ++ [.info, .particles 0 0 s.w] ++
        (List.range R.C.endFrame).flatMap (fun n => frameFiles R.C (n + 1) (t (n + 1)) (w (n + 1))) ++
        frameFiles R.C R.C.endFrame (t R.C.endFrame) (w R.C.endFrame) ++ [.timing r.step] ∧
      ∀ n, 1 ≤ n → n ≤ R.C.endFrame → n / R.C.fps - R.C.minDt * (11 / 10) < t n ∧ t n ≤ n / R.C.fps := by
  have hw : fillMuI R.m R.S.P.useMibf s.w = s.w := by
    rw [fillMuI, hS]; simp [mkTransferParams]
  rw [← hw]
  refine completes_of_defined hnf hacc hmin hfuel hN hfd hsave hend fun hres => ?_
  obtain ⟨k, s1, h1, h2, h3⟩ := C68_only_outside hS hdx hL hpbc hfresh hne hsched hmin hrob hres
  exact h3 (hcov k s1 h1 h2)

end run

end Verif.Props
