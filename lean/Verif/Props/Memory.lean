import Verif.Props.Run

set_option linter.unusedSectionVars false
set_option linter.unusedSimpArgs false
set_option linter.unusedVariables false

/-!
# C19: the state of the object after `simulate` is that of the last file
-/

namespace Verif.Props
open Verif
noncomputable section

section loop
variable {d : ℕ} {W : Type*} {C : TimeConfig d} {ph : Physics d W} {gf : Fin d → ℝ}

lemma saveFrame_last (hsave : C.saveSim = true) (s : LoopState d W) :
    .particles (saveFrame C s).frame (saveFrame C s).time (saveFrame C s).w ∈ (saveFrame C s).out := by
  simp [saveFrame, hsave]

lemma loop_last (hsave : C.saveSim = true) : ∀ (fuel : ℕ) (s r : LoopState d W),
    (s.frame < C.endFrame ∨ .particles s.frame s.time s.w ∈ s.out) → loop C ph gf fuel s = .finished r →
    .particles r.frame r.time r.w ∈ r.out := by
  have hfin : ∀ s : LoopState d W, .particles s.frame s.time s.w ∈ s.out →
      .particles (finish C s).frame (finish C s).time (finish C s).w ∈ (finish C s).out := by
    intro s h
    simp only [finish, hsave, if_true, List.mem_append]
    exact .inl h
  intro fuel
  induction fuel with
  | zero =>
    intro s r hs h
    unfold loop at h
    split_ifs at h with hf
    obtain rfl := Result.finished.inj h
    exact hfin s (hs.resolve_left hf)
  | succ fuel ih =>
    intro s r hs h
    unfold loop at h
    split_ifs at h with hf
    · rcases loopBody_cases (C := C) (ph := ph) (gf := gf) s with hb | ⟨_, _, _, _, _, hb⟩ |
        ⟨dt, g, w, -, -, -, -, -, hb⟩
      · rw [hb] at h; cases h
      · rw [hb] at h; cases h
      simp only at hb
      split_ifs at hb with hc
      · rw [hb] at h
        obtain rfl := Result.finished.inj h
        exact hfin _ (saveFrame_last hsave _)
      · rw [hb] at h
        refine ih _ _ ?_ h
        simp only [endOfFrame]
        split_ifs
        · exact .inr (saveFrame_last hsave _)
        · exact .inl hf
    · obtain rfl := Result.finished.inj h
      exact hfin s (hs.resolve_left hf)

end loop

section run
variable {d : ℕ} {R : Setup (d + 2)} {i e : Bool} {fuel : ℕ} {s : LoopState (d + 2) (World (d + 2))}

/-- **C19** After `simulate` has ended normally, the particles in memory (and the time, and the frame number) are those
of the last particle file: everything shown for the files holds for them too. -/
theorem C19_memory (hsave : R.C.saveSim = true) {r : LoopState (d + 2) (World (d + 2))}
    (h : runProgram R i e fuel s = .finished r) : .particles r.frame r.time r.w ∈ filesOf (runProgram R i e fuel s) := by
  rw [h]
  simp only [runProgram] at h
  split_ifs at h with ha
  rw [simulate_eq ha] at h
  refine loop_last hsave fuel _ r (.inr ?_) h
  rw [start_frame, start_time]
  simp [startState, hsave]

end run
end
end Verif.Props
