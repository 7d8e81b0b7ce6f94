import Verif.Props.Local
import Verif.Props.RunExamples

set_option linter.unusedSectionVars false
set_option linter.unusedSimpArgs false
set_option linter.unusedVariables false

/-!
# A case meeting the hypotheses of C97
-/

namespace Verif.Props.RunEx
open Verif Matrix
noncomputable section

/-- Two stretched particles ten cells apart. -/
def apart : List (Particle 2 ℝ) :=
  [{ Particle.init with x := ![1 / 3, 0], F := diagonal ![Real.exp 1, Real.exp (-1)] },
   { Particle.init with x := ![1 / 3 + 10, 0], F := diagonal ![Real.exp (-1), Real.exp 2] }]

lemma apart_step {musl : Bool} {pm : PlasticModel} {g : Fin 2 → ℝ} {s1 : LoopState 2 (World 2)} {dt : ℝ} {g' : Fin 2 → ℝ}
    {w : World 2} (h : StepOf (d := 0) (setup musl 1 pm) (start apart g) s1 dt g' w) : s1.w.ps = apart := by
  obtain ⟨k, hk⟩ := h
  have h0 := only_begin musl (pm := pm) (ps := apart) (by simp [apart]) (by simp [apart, Particle.init]) g k s1 hk.1
  subst h0
  have := hk.1
  cases this
  rw [begin_w]
  rfl

/-- The right one of two bodies of particles, beyond yield and under gravity, moves as if it were alone. -/
example (musl : Bool) {pm : PlasticModel} (hpm : pm = .vm ∨ pm = .dp ∨ pm = .dpSoft ∨ pm = .dpVisc) (g : Fin 2 → ℝ) :
    ∃ r r', runProgram (d := 0) (setup musl 1 pm) true false 10 (start apart g) = .finished r ∧
      runProgram (d := 0) (setup musl 1 pm) true false 10 (start [apart[1]] g) = .finished r' ∧
      (∃ t w, .particles 1 t w ∈ r.out) ∧ OnlyBody (d := 0) [1] r.w r'.w ∧
      List.Forall₂ (FileRel (OnlyBody (d := 0) [1])) r.out r'.out := by
  obtain ⟨r, hr, hout⟩ := one_step_run musl hpm (ps := apart) (by simp [apart]) (by simp [apart, Particle.init]) g
  obtain ⟨r2, hr2, -⟩ := one_step_run musl hpm (ps := [apart[1]]) (by simp) (by simp [apart, Particle.init]) g
  have hpick : pick [1] apart = [apart[1]] := rfl
  have hpick0 : pick [0] apart = [apart[0]] := rfl
  obtain ⟨r', h1, -, -, -, h2, l, l', e1, e2, h3⟩ := C97_separate_bodies (d := 0) (R := setup musl 1 pm) (s := start apart g)
    (i := true) (e := false) (fuel := 10)
    (deg := .two) (dx := 1) (fr := -19 / 20) (mass := 3) (vol := 1) (mibf := false) (body := [1]) (rest := [0])
    rfl (by simp) one_pos rfl rfl (fun _ _ => by simp [setup]) (by show [1, 0].Perm [0, 1]; exact List.Perm.swap _ _ _) (by simp)
    (by
      intro a m m' hm hm'
      have k1 : m = apart[0].x a := by
        refine hm.unique ⟨.inl ⟨apart[0].x, by simp [start, apart], rfl⟩, ?_⟩
        rintro y (⟨x, hx, rfl⟩ | ⟨r0, hr0, rfl⟩)
        · simp only [start, apart, List.map_cons, List.map_nil, List.mem_cons, List.not_mem_nil, or_false] at hx
          rcases hx with rfl | rfl
          · exact le_rfl
          · fin_cases a <;> simp [apart]
        · cases hr0
      have k2 : m' = apart[1].x a := by
        refine hm'.unique ⟨.inl ⟨apart[1].x, by simp [start, hpick], rfl⟩, ?_⟩
        rintro y (⟨x, hx, rfl⟩ | ⟨r0, hr0, rfl⟩)
        · simp only [start, hpick, List.map_cons, List.map_nil, List.mem_cons, List.not_mem_nil, or_false] at hx
          rw [hx]
        · cases hr0
      rw [k1, k2]
      fin_cases a
      · exact ⟨10, by simp [apart]⟩
      · exact ⟨0, by simp [apart]⟩)
    (by
      intro s1 dt g' w hst p hp q hq
      rw [apart_step hst] at hp hq
      rw [hpick, List.mem_singleton] at hp
      rw [hpick0, List.mem_singleton] at hq
      subst hp hq
      exact ⟨0, by norm_num [width, apart]⟩)
    (by
      intro s1 dt g' w hst
      rw [apart_step hst]
      left
      intro q hq
      rw [hpick0, List.mem_singleton] at hq
      subst hq
      exact ⟨_, by rw [hpick]; simp; rfl, by simp [apart, Particle.init]⟩)
    hr (by
      show runProgram (setup musl 1 pm) true false 10 (start [apart[1]] g) ≠ .ub
      rw [hr2]; simp)
  refine ⟨r, r', hr, h1, hout, h2, ?_⟩
  simp only [start, List.nil_append] at e1 e2
  rw [e1, e2]
  exact h3

end
end Verif.Props.RunEx
