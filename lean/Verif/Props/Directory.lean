import Verif.Props.Files

/-!
# C84: the output directory
-/

set_option linter.unusedSectionVars false
set_option linter.unusedSimpArgs false
set_option linter.unusedVariables false

namespace Verif.Props
open Verif Matrix

section
variable {d : ℕ} {R : Setup (d + 2)} {i e : Bool} {fuel : ℕ} {s : LoopState (d + 2) (World (d + 2))}
  {o : Output}

/-- The path of a file of the run. -/
local notation "⟪" o ", " f "⟫" => outPath (Output.directory o) (Output.simName o) f

/-- **C84** File names: files of different frames or of different kind have different names. -/
theorem C84_names (o : Output) (a b : ℕ) :
    (⟪o, particleFile a⟫ = ⟪o, particleFile b⟫ ↔ a = b) ∧ (⟪o, gridFile a⟫ = ⟪o, gridFile b⟫ ↔ a = b) ∧
    ⟪o, particleFile a⟫ ≠ ⟪o, gridFile b⟫ ∧
    [⟪o, particleFile a⟫, ⟪o, gridFile a⟫, ⟪o, lastWrittenFile⟫, ⟪o, infoFile⟫, ⟪o, timingFile⟫].Nodup := by
  refine ⟨by rw [outPath_inj, particleFile_inj], by rw [outPath_inj, gridFile_inj], ?_, ?_⟩
  · rw [Ne, outPath_inj]; exact particle_ne_grid a b
  · simp only [List.nodup_cons, List.mem_cons, List.not_mem_nil, or_false, outPath_inj, not_or, not_false_eq_true,
      List.nodup_nil, and_true]
    exact ⟨⟨particle_ne_grid a a, particle_ne_last a, particle_ne_info a, particle_ne_timing a⟩,
      ⟨grid_ne_last a, grid_ne_info a, grid_ne_timing a⟩, ⟨last_ne_info, last_ne_timing⟩, info_ne_timing⟩

/-- **C84** Runs with different names in the same directory do not touch each other's files, if the names
do not contain a slash: whatever the events of a run, the files of the other name stay as they are. -/
theorem C84_separate {evs : List (Event (World (d + 2)))} {D : Disk} {name f : String}
    (h1 : '/' ∉ o.simName.toList) (h2 : '/' ∉ name.toList) (hne : name ≠ o.simName) :
    diskAfter R o evs D (outPath o.directory name f) = D (outPath o.directory name f) := by
  refine applyWrites_of_not_mem fun x hx hp => ?_
  rw [List.mem_flatMap] at hx
  obtain ⟨ev, -, hx⟩ := hx
  obtain ⟨g, hg⟩ := fileWrites_path hx
  rw [hg] at hp
  exact hne (outPath_name h1 h2 hp).symm

lemma frame_disk (n : ℕ) (t : ℝ) (w : World (d + 2)) (D : Disk) (p : String) :
    diskAfter R o (frameFiles R.C n t w) D p =
    if p = ⟪o, particleFile n⟫ then some (.ply (writePly (particleGroups R.m R.S.P.useMibf w.ps)))
    else if p = ⟪o, lastWrittenFile⟫ then some (.lines [(n : ℝ)])
    else if R.C.saveGrid = true ∧ p = ⟪o, gridFile n⟫ then
      some (.ply (writePly (gridGroups R.S.P.useMibf w)))
    else D p := by
  rw [frameFiles, diskAfter_append]
  by_cases hg : R.C.saveGrid = true
  · rw [if_pos hg, diskAfter_grid, diskAfter_particles]
    simp only [hg, true_and]
    by_cases hp : p = ⟪o, gridFile n⟫
    · have h1 : p ≠ ⟪o, particleFile n⟫ := by
        rw [hp, Ne, outPath_inj]; exact (particle_ne_grid n n).symm
      have h2 : p ≠ ⟪o, lastWrittenFile⟫ := by
        rw [hp, Ne, outPath_inj]; exact grid_ne_last n
      rw [if_pos hp, if_neg h1, if_neg h2, if_pos hp]
    · rw [if_neg hp]; split_ifs <;> rfl
  · rw [if_neg hg, diskAfter_nil, diskAfter_particles]
    simp only [hg, Bool.false_eq_true, false_and, if_false]

/-- Disk after the files of frames `1 .. n`. -/
lemma frames_disk (t : ℕ → ℝ) (w : ℕ → World (d + 2)) (D : Disk) (n : ℕ) :
    let D' := diskAfter R o ((List.range n).flatMap fun n => frameFiles R.C (n + 1) (t (n + 1)) (w (n + 1))) D
    (∀ k, 1 ≤ k → k ≤ n → D' ⟪o, particleFile k⟫ =
      some (.ply (writePly (particleGroups R.m R.S.P.useMibf (w k).ps)))) ∧
    (R.C.saveGrid = true → ∀ k, 1 ≤ k → k ≤ n → D' ⟪o, gridFile k⟫ =
      some (.ply (writePly (gridGroups R.S.P.useMibf (w k))))) ∧
    (1 ≤ n → D' ⟪o, lastWrittenFile⟫ = some (.lines [(n : ℝ)])) ∧
    ∀ p, p ≠ ⟪o, lastWrittenFile⟫ → (∀ k, 1 ≤ k → k ≤ n → p ≠ ⟪o, particleFile k⟫) →
      (R.C.saveGrid = true → ∀ k, 1 ≤ k → k ≤ n → p ≠ ⟪o, gridFile k⟫) → D' p = D p := by
  induction n with
  | zero => exact ⟨fun k h1 h2 => by omega, fun _ k h1 h2 => by omega, fun h => by omega,
      fun p _ _ _ => rfl⟩
  | succ n ih =>
    obtain ⟨i1, i2, i3, i4⟩ := ih
    have hsplit : (List.range (n + 1)).flatMap (fun n => frameFiles R.C (n + 1) (t (n + 1)) (w (n + 1))) =
        (List.range n).flatMap (fun n => frameFiles R.C (n + 1) (t (n + 1)) (w (n + 1))) ++
          frameFiles R.C (n + 1) (t (n + 1)) (w (n + 1)) := by
      rw [List.range_succ, List.flatMap_append]; simp
    intro D'
    have hD' : ∀ p, D' p = _ := fun p => by
      show diskAfter R o _ D p = _
      rw [hsplit, diskAfter_append, frame_disk]
    refine ⟨fun k h1 h2 => ?_, fun hg k h1 h2 => ?_, fun _ => ?_, fun p p1 p2 p3 => ?_⟩
    · rw [hD']
      by_cases hk : k = n + 1
      · subst hk; rw [if_pos rfl]
      · rw [if_neg (by rw [outPath_inj, particleFile_inj]; exact hk),
          if_neg (by rw [outPath_inj]; exact particle_ne_last k),
          if_neg (by rw [outPath_inj]; exact fun h => particle_ne_grid _ _ h.2)]
        exact i1 k h1 (by omega)
    · rw [hD', if_neg (by rw [outPath_inj]; exact (particle_ne_grid _ _).symm),
        if_neg (by rw [outPath_inj]; exact grid_ne_last _)]
      by_cases hk : k = n + 1
      · subst hk; rw [if_pos ⟨hg, rfl⟩]
      · rw [if_neg (by rw [outPath_inj, gridFile_inj]; exact fun h => hk h.2)]
        exact i2 hg k h1 (by omega)
    · rw [hD', if_neg (by rw [outPath_inj]; exact (particle_ne_last _).symm), if_pos rfl]
    · rw [hD', if_neg (p2 _ (by omega) le_rfl), if_neg p1,
        if_neg (fun h => p3 h.1 _ (by omega) le_rfl h.2)]
      exact i4 p p1 (fun k h1 h2 => p2 k h1 (by omega)) fun hg k h1 h2 => p3 hg k h1 (by omega)

/-- **C84** What a completed run leaves behind, whatever was in the directory before. For every frame
`n <= end_frame` there is a particle file showing the particles at a time `t n` with
`n/fps - 1.1 min_dt < t n <= n/fps`, frame 0 being the initial state; with `save_grid` there is a grid
file for every frame from 1 on, showing the grid at the same time; `last_written.txt` holds `end_frame`;
`info.txt` and `info_timing.txt` are there. No other file is created, changed or removed. -/
theorem C84_directory (hd : d ≤ 1) (hm : 0 < R.C.minDt) (hfd : R.C.minDt * (11 / 10) ≤ 1 / R.C.fps)
    (hsave : R.C.saveSim = true) (hend : 1 ≤ R.C.endFrame) {r : LoopState (d + 2) (World (d + 2))}
    (h : runProgram R i e fuel s = .finished r) (o : Output) :
    ∃ new, r.out = s.out ++ new ∧ ∀ D : Disk,
    ∃ (t : ℕ → ℝ) (w : ℕ → World (d + 2)), t 0 = 0 ∧ w 0 = (begin R s).w ∧
      (∀ n, 1 ≤ n → n ≤ R.C.endFrame →
        n / R.C.fps - R.C.minDt * (11 / 10) < t n ∧ t n ≤ n / R.C.fps) ∧
      (∀ n, n ≤ R.C.endFrame → .particles n (t n) (w n) ∈ new ∧ ∃ f,
        diskAfter R o new D ⟪o, particleFile n⟫ = some (.ply f) ∧
          ShowsParticles R.m R.S.P.useMibf f (w n).ps) ∧
      (R.C.saveGrid = true → ∀ n, 1 ≤ n → n ≤ R.C.endFrame → .grid n (t n) (w n) ∈ new ∧ ∃ f,
        diskAfter R o new D ⟪o, gridFile n⟫ = some (.ply f) ∧ ShowsGrid R.S.P.useMibf f (w n)) ∧
      diskAfter R o new D ⟪o, lastWrittenFile⟫ = some (.lines [(R.C.endFrame : ℝ)]) ∧
      diskAfter R o new D ⟪o, infoFile⟫ = some (.lines [R.C.endFrame, printed R.C.fps, printed R.C.dx,
        o.np, printed R.S.P.particleVolume]) ∧
      diskAfter R o new D ⟪o, timingFile⟫ = some (.lines ((r.step : ℝ) :: o.runtimes.map printed)) ∧
      ∀ p, (∀ n ≤ R.C.endFrame, p ≠ ⟪o, particleFile n⟫) →
        (R.C.saveGrid = true → ∀ n, 1 ≤ n → n ≤ R.C.endFrame → p ≠ ⟪o, gridFile n⟫) →
        p ≠ ⟪o, lastWrittenFile⟫ → p ≠ ⟪o, infoFile⟫ → p ≠ ⟪o, timingFile⟫ →
        diskAfter R o new D p = D p := by
  have ha : accepted i R.m.elastic R.m.plastic e = true := by
    by_contra ha
    simp only [runProgram, ha, if_false, Bool.false_eq_true, reduceCtorEq] at h
  simp only [runProgram, ha, if_true] at h
  obtain ⟨-, t, w, hout, ht⟩ := C19_files hm hfd hsave hend fuel _ _ h
  have hd2 : d + 2 = 2 ∨ d + 2 = 3 := by omega
  simp only [List.append_assoc] at hout
  refine ⟨_, hout, fun D => ?_⟩
  rw [begin_w]
  set w0 := fillMuI R.m R.S.P.useMibf s.w with hw0
  refine ⟨fun n => if n = 0 then 0 else t n, fun n => if n = 0 then w0 else w n, if_pos rfl, if_pos rfl,
    fun n h1 h2 => ?_, ?_⟩
  · simp only [show n ≠ 0 by omega, if_false]; exact ht n h1 h2
  set D1 := diskAfter R o [.info, .particles 0 0 w0] D with hD1
  have hD1' : ∀ p, D1 p = if p = ⟪o, particleFile 0⟫ then
      some (.ply (writePly (particleGroups R.m R.S.P.useMibf w0.ps)))
      else if p = ⟪o, lastWrittenFile⟫ then some (.lines [((0 : ℕ) : ℝ)])
      else if p = ⟪o, infoFile⟫ then some (.lines [R.C.endFrame, printed R.C.fps, printed R.C.dx,
        o.np, printed R.S.P.particleVolume]) else D p := fun p => by
    rw [hD1, show ([.info, .particles 0 0 w0] : List (Event (World (d + 2)))) =
      [.info] ++ [.particles 0 0 w0] from rfl, diskAfter_append, diskAfter_particles, diskAfter_info]
  obtain ⟨f1, f2, f3, f4⟩ := frames_disk (R := R) (o := o) t w D1 R.C.endFrame
  set D2 := diskAfter R o ((List.range R.C.endFrame).flatMap fun n =>
    frameFiles R.C (n + 1) (t (n + 1)) (w (n + 1))) D1 with hD2
  set new := [.info, .particles 0 0 w0] ++ ((List.range R.C.endFrame).flatMap (fun n =>
    frameFiles R.C (n + 1) (t (n + 1)) (w (n + 1))) ++
    (frameFiles R.C R.C.endFrame (t R.C.endFrame) (w R.C.endFrame) ++ [.timing r.step])) with hnew
  have hD : ∀ p, diskAfter R o new D p =
      if p = ⟪o, timingFile⟫ then some (.lines ((r.step : ℝ) :: o.runtimes.map printed))
      else if p = ⟪o, particleFile R.C.endFrame⟫ then
        some (.ply (writePly (particleGroups R.m R.S.P.useMibf (w R.C.endFrame).ps)))
      else if p = ⟪o, lastWrittenFile⟫ then some (.lines [(R.C.endFrame : ℝ)])
      else if R.C.saveGrid = true ∧ p = ⟪o, gridFile R.C.endFrame⟫ then
        some (.ply (writePly (gridGroups R.S.P.useMibf (w R.C.endFrame))))
      else D2 p := fun p => by
    rw [hnew, diskAfter_append, diskAfter_append, diskAfter_append, diskAfter_timing, ← hD1, ← hD2,
      frame_disk]
  have hfm : ∀ n, 1 ≤ n → n ≤ R.C.endFrame → ∀ ev ∈ frameFiles R.C n (t n) (w n), ev ∈ new := by
    intro n h1 h2 ev hev
    rw [hnew]
    refine List.mem_append_right _ (List.mem_append_left _ (List.mem_flatMap.mpr ⟨n - 1, ?_, ?_⟩))
    · rw [List.mem_range]; omega
    · rw [Nat.sub_add_cancel h1]; exact hev
  refine ⟨fun n hn => ?_, fun hg n h1 h2 => ?_, ?_, ?_, ?_, ?_⟩
  · by_cases h0 : n = 0
    · subst h0
      simp only [if_true]
      refine ⟨by rw [hnew]; simp, _, ?_, C85_particles hd2 R.m R.S.P.useMibf w0.ps⟩
      rw [hD, if_neg (by rw [outPath_inj]; exact particle_ne_timing _),
        if_neg (by rw [outPath_inj, particleFile_inj]; omega),
        if_neg (by rw [outPath_inj]; exact particle_ne_last _),
        if_neg (by rw [outPath_inj]; exact fun h => particle_ne_grid _ _ h.2),
        f4 _ (by rw [Ne, outPath_inj]; exact particle_ne_last _)
          (fun k h1 _ => by rw [Ne, outPath_inj, particleFile_inj]; omega)
          (fun _ k _ _ => by rw [Ne, outPath_inj]; exact particle_ne_grid _ _), hD1', if_pos rfl]
    · simp only [h0, if_false]
      refine ⟨hfm n (by omega) hn _ (by simp [frameFiles]), _, ?_,
        C85_particles hd2 R.m R.S.P.useMibf (w n).ps⟩
      rw [hD, if_neg (by rw [outPath_inj]; exact particle_ne_timing _)]
      by_cases hk : n = R.C.endFrame
      · rw [hk, if_pos rfl]
      · rw [if_neg (by rw [outPath_inj, particleFile_inj]; exact hk),
          if_neg (by rw [outPath_inj]; exact particle_ne_last _),
          if_neg (by rw [outPath_inj]; exact fun h => particle_ne_grid _ _ h.2)]
        exact f1 n (by omega) hn
  · simp only [show n ≠ 0 by omega, if_false]
    refine ⟨hfm n h1 h2 _ (by simp [frameFiles, hg]), _, ?_, C85_grid hd2 R.S.P.useMibf (w n)⟩
    rw [hD, if_neg (by rw [outPath_inj]; exact grid_ne_timing _),
      if_neg (by rw [outPath_inj]; exact (particle_ne_grid _ _).symm),
      if_neg (by rw [outPath_inj]; exact grid_ne_last _)]
    by_cases hk : n = R.C.endFrame
    · rw [hk, if_pos ⟨hg, rfl⟩]
    · rw [if_neg (by rw [outPath_inj, gridFile_inj]; exact fun h => hk h.2)]
      exact f2 hg n h1 h2
  · rw [hD, if_neg (by rw [outPath_inj]; exact last_ne_timing),
      if_neg (by rw [outPath_inj]; exact (particle_ne_last _).symm), if_pos rfl]
  · rw [hD, if_neg (by rw [outPath_inj]; exact info_ne_timing),
      if_neg (by rw [outPath_inj]; exact (particle_ne_info _).symm),
      if_neg (by rw [outPath_inj]; exact last_ne_info.symm),
      if_neg (by rw [outPath_inj]; exact fun h => grid_ne_info _ h.2.symm),
      f4 _ (by rw [Ne, outPath_inj]; exact last_ne_info.symm)
        (fun k _ _ => by rw [Ne, outPath_inj]; exact (particle_ne_info _).symm)
        (fun _ k _ _ => by rw [Ne, outPath_inj]; exact (grid_ne_info _).symm),
      hD1', if_neg (by rw [outPath_inj]; exact (particle_ne_info _).symm),
      if_neg (by rw [outPath_inj]; exact last_ne_info.symm), if_pos rfl]
  · rw [hD, if_pos rfl]
  · intro p p1 p2 p3 p4 p5
    rw [hD, if_neg p5, if_neg (p1 _ le_rfl), if_neg p3, if_neg (fun h => p2 h.1 _ hend le_rfl h.2),
      f4 p p3 (fun k _ h2 => p1 k h2) p2, hD1', if_neg (p1 0 (by omega)), if_neg p3, if_neg p4]

/-- **C84** Files left behind by earlier runs: those of frames beyond `end_frame` survive a completed run,
and so does a grid file of frame 0, which no run writes. -/
theorem C84_leftover (hd : d ≤ 1) (hm : 0 < R.C.minDt) (hfd : R.C.minDt * (11 / 10) ≤ 1 / R.C.fps)
    (hsave : R.C.saveSim = true) (hend : 1 ≤ R.C.endFrame) {r : LoopState (d + 2) (World (d + 2))}
    (h : runProgram R i e fuel s = .finished r) (o : Output) :
    ∃ new, r.out = s.out ++ new ∧ ∀ D : Disk,
      (∀ n, R.C.endFrame < n → diskAfter R o new D ⟪o, particleFile n⟫ = D ⟪o, particleFile n⟫ ∧
        diskAfter R o new D ⟪o, gridFile n⟫ = D ⟪o, gridFile n⟫) ∧
      diskAfter R o new D ⟪o, gridFile 0⟫ = D ⟪o, gridFile 0⟫ ∧
      (R.C.saveGrid = false → ∀ n, diskAfter R o new D ⟪o, gridFile n⟫ = D ⟪o, gridFile n⟫) := by
  obtain ⟨new, hnew, hD⟩ := C84_directory hd hm hfd hsave hend h o
  refine ⟨new, hnew, fun D => ?_⟩
  obtain ⟨t, w, -, -, -, -, -, -, -, -, hr⟩ := hD D
  have hgrid : ∀ n, (R.C.saveGrid = true → n = 0 ∨ R.C.endFrame < n) →
      diskAfter R o new D ⟪o, gridFile n⟫ = D ⟪o, gridFile n⟫ := fun n hn =>
    hr _ (fun k _ => by rw [Ne, outPath_inj]; exact (particle_ne_grid _ _).symm)
      (fun hg k h1 h2 => by rw [Ne, outPath_inj, gridFile_inj]; rcases hn hg with h | h <;> omega)
      (by rw [Ne, outPath_inj]; exact grid_ne_last _) (by rw [Ne, outPath_inj]; exact grid_ne_info _)
      (by rw [Ne, outPath_inj]; exact grid_ne_timing _)
  refine ⟨fun n hn => ⟨?_, hgrid n fun _ => .inr hn⟩, hgrid 0 fun _ => .inl rfl,
    fun hg n => hgrid n fun h => by rw [hg] at h; cases h⟩
  exact hr _ (fun k hk => by rw [Ne, outPath_inj, particleFile_inj]; omega)
    (fun _ k _ _ => by rw [Ne, outPath_inj]; exact particle_ne_grid _ _)
    (by rw [Ne, outPath_inj]; exact particle_ne_last _) (by rw [Ne, outPath_inj]; exact particle_ne_info _)
    (by rw [Ne, outPath_inj]; exact particle_ne_timing _)

/-- **C84** Without saving, the file system is not touched. -/
theorem C84_silent (hsave : R.C.saveSim = false) {r : LoopState (d + 2) (World (d + 2))}
    (h : runProgram R i e fuel s = .finished r ∨ runProgram R i e fuel s = .failed r) (o : Output) (D : Disk) :
    diskAfter R o r.out D = diskAfter R o s.out D := by
  have ha : accepted i R.m.elastic R.m.plastic e = true := by
    by_contra ha
    simp only [runProgram, ha, if_false, Bool.false_eq_true, reduceCtorEq, or_self] at h
  simp only [runProgram, ha, if_true] at h
  rw [C19_no_saving hsave fuel _ r h]

/-! ### the directory while the program runs -/

/-- Events of a run so far, the last saved frame being `m`. -/
inductive Written {W : Type*} : ℕ → List (Event W) → Prop
  | start (w : W) : Written 0 [.info, .particles 0 0 w]
  | particles {m n : ℕ} {evs : List (Event W)} (t : ℝ) (w : W) : Written m evs → (n = m ∨ n = m + 1) →
      Written n (evs ++ [.particles n t w])
  | grid {m : ℕ} {evs : List (Event W)} (n : ℕ) (t : ℝ) (w : W) : Written m evs →
      Written m (evs ++ [.grid n t w])
  | timing {m : ℕ} {evs : List (Event W)} (k : ℕ) : Written m evs → Written m (evs ++ [.timing k])

section loop
variable {W : Type*} {C : TimeConfig d} {ph : Physics d W} {gf : Fin d → ℝ}

lemma written_save (hs : C.saveSim = true) {base new : List (Event W)} {m : ℕ} {s : LoopState d W}
    (ho : s.out = base ++ new) (hw : Written m new) (hf : s.frame = m ∨ s.frame = m + 1) :
    ∃ new', (saveFrame C s).out = base ++ new' ∧ Written (saveFrame C s).frame new' := by
  rw [saveFrame_frame]
  simp only [saveFrame, hs, if_true, ho]
  by_cases hg : C.saveGrid = true
  · simp only [hg, if_true]
    exact ⟨new ++ [.particles s.frame s.time s.w] ++ [.grid s.frame s.time s.w], by simp,
      .grid _ _ _ (.particles _ _ hw hf)⟩
  · simp only [hg, if_false, Bool.false_eq_true]
    exact ⟨new ++ [.particles s.frame s.time s.w], by simp, .particles _ _ hw hf⟩

lemma written_end (hs : C.saveSim = true) {base new : List (Event W)} {s : LoopState d W}
    (ho : s.out = base ++ new) (hw : Written s.frame new) :
    ∃ new', (endOfFrame C s).out = base ++ new' ∧ Written (endOfFrame C s).frame new' := by
  simp only [endOfFrame]
  split_ifs
  · exact written_save hs (s := { s with frame := s.frame + 1 }) ho hw (.inr rfl)
  · exact ⟨new, ho, hw⟩

lemma written_finish (hs : C.saveSim = true) {base new : List (Event W)} {s : LoopState d W}
    (ho : s.out = base ++ new) (hw : Written s.frame new) :
    ∃ new', (finish C s).out = base ++ new' ∧ Written (finish C s).frame new' := by
  simp only [finish, hs, if_true, ho]
  exact ⟨new ++ [.timing s.step], by simp, .timing _ hw⟩

lemma written_loop (hs : C.saveSim = true) {base : List (Event W)} (fuel : ℕ) :
    ∀ (s : LoopState d W) (new : List (Event W)), s.out = base ++ new → Written s.frame new →
    ∀ r, (loop C ph gf fuel s = .finished r ∨ loop C ph gf fuel s = .failed r ∨
      loop C ph gf fuel s = .outOfFuel r) → ∃ new', r.out = base ++ new' ∧ Written r.frame new' := by
  induction fuel with
  | zero =>
    intro s new ho hw r h
    unfold loop at h
    split_ifs at h
    · simp only [reduceCtorEq, Result.outOfFuel.injEq, false_or] at h
      subst h; exact ⟨new, ho, hw⟩
    · simp only [Result.finished.injEq, reduceCtorEq, or_false] at h
      subst h; exact written_finish hs ho hw
  | succ n ih =>
    intro s new ho hw r h
    unfold loop at h
    split_ifs at h
    swap
    · simp only [Result.finished.injEq, reduceCtorEq, or_false] at h
      subst h; exact written_finish hs ho hw
    rcases loopBody_cases (C := C) (ph := ph) (gf := gf) s with hb | ⟨dt, g, w, _, _, hb⟩ |
      ⟨dt, g, w, hu, hmin, _, hg, hst, hb⟩
    · rw [hb] at h; simp at h
    · rw [hb] at h
      simp only [reduceCtorEq, Result.failed.injEq, false_or, or_false] at h
      subst h; exact ⟨new, ho, hw⟩
    · simp only at hb
      obtain ⟨new', ho', hw'⟩ := written_end (C := C) hs (base := base) (new := new)
        (s := { s with w := w, gravity := g, time := s.time + dt, step := s.step + 1 }) ho hw
      split_ifs at hb
      · rw [hb] at h
        simp only [Result.finished.injEq, reduceCtorEq, or_false] at h
        obtain ⟨new'', ho'', hw''⟩ := written_save (C := C) hs ho' hw' (.inl rfl)
        subst h; exact written_finish hs ho'' hw''
      · rw [hb] at h
        exact ih _ _ ho' hw' r h

end loop

lemma prefix_append {α : Type*} {l a b : List α} (h : l <+: a ++ b) :
    l <+: a ∨ ∃ c, l = a ++ c ∧ c <+: b := by
  rcases List.prefix_or_prefix_of_prefix h (List.prefix_append a b) with h' | ⟨c, hc⟩
  · exact .inl h'
  · subst hc
    exact .inr ⟨c, rfl, (List.prefix_append_right_inj a).mp h⟩

lemma prefix_nil_cons {α : Type*} {l : List α} (a : α) (b : List α) (h : l <+: a :: b) :
    l = [] ∨ ∃ c, l = a :: c ∧ c <+: b := by
  cases l with
  | nil => exact .inl rfl
  | cons x l =>
    rw [List.cons_prefix_cons] at h
    exact .inr ⟨l, by rw [h.1], h.2⟩

/-- Particle file `k` is complete and shows a state saved as frame `k`. -/
def Complete (R : Setup (d + 2)) (o : Output) (evs : List (Event (World (d + 2)))) (D : Disk) (k : ℕ) : Prop :=
  ∃ t w, .particles k t w ∈ evs ∧
    D ⟪o, particleFile k⟫ = some (.ply (writePly (particleGroups R.m R.S.P.useMibf w.ps)))

lemma Complete.mono {evs evs' : List (Event (World (d + 2)))} {D D' : Disk} {k : ℕ}
    (h : Complete R o evs D k) (he : ∀ ev ∈ evs, ev ∈ evs')
    (hD : D' ⟪o, particleFile k⟫ = D ⟪o, particleFile k⟫) : Complete R o evs' D' k := by
  obtain ⟨t, w, h1, h2⟩ := h
  exact ⟨t, w, he _ h1, hD ▸ h2⟩

lemma written_complete {m : ℕ} {evs : List (Event (World (d + 2)))} (hw : Written m evs) :
    (∀ D, diskAfter R o evs D ⟪o, lastWrittenFile⟫ = some (.lines [(m : ℝ)]) ∧
      ∀ k ≤ m, Complete R o evs (diskAfter R o evs D) k) ∧
    ∀ ws, ws <+: evs.flatMap (fileWrites R o) → ∀ D : Disk, D ⟪o, lastWrittenFile⟫ = none →
      ∀ N : ℕ, applyWrites ws D ⟪o, lastWrittenFile⟫ = some (.lines [(N : ℝ)]) →
      ∀ k < N, Complete R o evs (applyWrites ws D) k := by
  have hPL : ∀ k, (⟪o, particleFile k⟫ = ⟪o, lastWrittenFile⟫) = False := fun k => by
    rw [outPath_inj]; exact eq_false (particle_ne_last k)
  have hLP : ∀ k, (⟪o, lastWrittenFile⟫ = ⟪o, particleFile k⟫) = False := fun k => by
    rw [outPath_inj]; exact eq_false (particle_ne_last k).symm
  have hPP : ∀ a b, (⟪o, particleFile a⟫ = ⟪o, particleFile b⟫) = (a = b) := fun a b => by
    rw [outPath_inj, particleFile_inj]
  have hPG : ∀ a b, (⟪o, particleFile a⟫ = ⟪o, gridFile b⟫) = False := fun a b => by
    rw [outPath_inj]; exact eq_false (particle_ne_grid a b)
  have hLG : ∀ b, (⟪o, lastWrittenFile⟫ = ⟪o, gridFile b⟫) = False := fun b => by
    rw [outPath_inj]; exact eq_false (grid_ne_last b).symm
  have hPI : ∀ a, (⟪o, particleFile a⟫ = ⟪o, infoFile⟫) = False := fun a => by
    rw [outPath_inj]; exact eq_false (particle_ne_info a)
  have hLI : (⟪o, lastWrittenFile⟫ = ⟪o, infoFile⟫) = False := by
    rw [outPath_inj]; exact eq_false last_ne_info
  have hPT : ∀ a, (⟪o, particleFile a⟫ = ⟪o, timingFile⟫) = False := fun a => by
    rw [outPath_inj]; exact eq_false (particle_ne_timing a)
  have hLT : (⟪o, lastWrittenFile⟫ = ⟪o, timingFile⟫) = False := by
    rw [outPath_inj]; exact eq_false last_ne_timing
  induction hw with
  | start w =>
    refine ⟨fun D => ?_, fun ws hws D hD N hN k hk => ?_⟩
    · rw [show ([.info, .particles 0 0 w] : List (Event (World (d + 2)))) =
        [.info] ++ [.particles 0 0 w] from rfl, diskAfter_append]
      refine ⟨by rw [diskAfter_particles, if_neg (by rw [hLP]; exact id), if_pos rfl], fun k hk => ?_⟩
      obtain rfl : k = 0 := by omega
      exact ⟨0, w, by simp, by rw [diskAfter_particles, if_pos rfl]⟩
    · exfalso
      have key : applyWrites ws D ⟪o, lastWrittenFile⟫ ≠ some (.lines [(N : ℝ)]) := by
        have hN0 : ¬ ((0 : ℝ) = N) := by
          have : (0 : ℝ) < N := by exact_mod_cast (by omega : 0 < N)
          exact this.ne
        simp only [List.flatMap_cons, List.flatMap_nil, fileWrites, List.append_nil, List.cons_append,
          List.nil_append] at hws
        rcases prefix_nil_cons _ _ hws with rfl | ⟨_, rfl, hws1⟩
        · simp [applyWrites, hD]
        rcases prefix_nil_cons _ _ hws1 with rfl | ⟨_, rfl, hws2⟩
        · simp [applyWrites, hD, Function.update_apply, hLI]
        rcases prefix_nil_cons _ _ hws2 with rfl | ⟨_, rfl, hws3⟩
        · simp [applyWrites, hD, Function.update_apply, hLI]
        rcases prefix_nil_cons _ _ hws3 with rfl | ⟨_, rfl, hws4⟩
        · simp [applyWrites, hD, Function.update_apply, hLI, hLP]
        rcases prefix_nil_cons _ _ hws4 with rfl | ⟨_, rfl, hws5⟩
        · simp [applyWrites, hD, Function.update_apply, hLI, hLP]
        rcases prefix_nil_cons _ _ hws5 with rfl | ⟨_, rfl, hws6⟩
        · simp [applyWrites, hD, Function.update_apply, hLI, hLP, hN0]
        rw [List.prefix_nil] at hws6
        subst hws6
        simp [applyWrites, hD, Function.update_apply, hLI, hLP, hN0]
      exact key hN
  | @particles m n evs t w hw hn ih =>
    obtain ⟨iA, iB⟩ := ih
    have hmem : ∀ ev ∈ evs, ev ∈ evs ++ [.particles n t w] := fun ev h => List.mem_append_left _ h
    refine ⟨fun D => ?_, fun ws hws D hD N hN k hk => ?_⟩
    · rw [diskAfter_append]
      refine ⟨by rw [diskAfter_particles, if_neg (by rw [hLP]; exact id), if_pos rfl], fun k hk => ?_⟩
      by_cases hkn : k = n
      · subst hkn
        exact ⟨t, w, by simp, by rw [diskAfter_particles, if_pos rfl]⟩
      · refine ((iA D).2 k (by omega)).mono hmem ?_
        rw [diskAfter_particles, if_neg (by rw [hPP]; exact hkn), if_neg (by rw [hPL]; exact id)]
    · rw [List.flatMap_append] at hws
      rcases prefix_append hws with h | ⟨c, rfl, hc⟩
      · exact (iB ws h D hD N hN k hk).mono hmem rfl
      · rw [applyWrites_append] at hN ⊢
        change applyWrites c (diskAfter R o evs D) _ = _ at hN
        change Complete R o _ (applyWrites c (diskAfter R o evs D)) k
        obtain ⟨hL, hC⟩ := iA D
        set D2 := diskAfter R o evs D
        simp only [List.flatMap_cons, List.flatMap_nil, fileWrites, List.append_nil] at hc
        have fin : ∀ c : List (String × Content), k ≤ m → (k ≠ n → applyWrites c D2 ⟪o, particleFile k⟫ = D2 ⟪o, particleFile k⟫) →
            k ≠ n → Complete R o (evs ++ [.particles n t w]) (applyWrites c D2) k :=
          fun c h1 h2 h3 => (hC k h1).mono hmem (h2 h3)
        rcases prefix_nil_cons _ _ hc with rfl | ⟨_, rfl, hc1⟩
        · simp only [applyWrites, List.foldl_nil, hL, Option.some.injEq, Content.lines.injEq, List.cons.injEq,
            Nat.cast_inj, and_true] at hN
          exact fin _ (by omega) (fun _ => rfl) (by omega)
        rcases prefix_nil_cons _ _ hc1 with rfl | ⟨_, rfl, hc2⟩
        · simp only [applyWrites, List.foldl_nil, List.foldl_cons, Function.update_apply, hLP, if_false, hL,
            Option.some.injEq, Content.lines.injEq, List.cons.injEq, Nat.cast_inj, and_true] at hN
          exact fin _ (by omega) (fun h => by
            simp [applyWrites, Function.update_apply, hPP, h]) (by omega)
        rcases prefix_nil_cons _ _ hc2 with rfl | ⟨_, rfl, hc3⟩
        · simp [applyWrites, Function.update_apply, hLP] at hN
        rcases prefix_nil_cons _ _ hc3 with rfl | ⟨_, rfl, hc4⟩
        · simp only [applyWrites, List.foldl_nil, List.foldl_cons, Function.update_apply, hLP, if_false, if_true,
            Option.some.injEq, Content.lines.injEq, List.cons.injEq, Nat.cast_inj, and_true] at hN
          exact fin _ (by omega) (fun h => by
            simp [applyWrites, Function.update_apply, hPP, hPL, h]) (by omega)
        · rw [List.prefix_nil] at hc4
          subst hc4
          simp only [applyWrites, List.foldl_nil, List.foldl_cons, Function.update_apply, hLP, if_false, if_true,
            Option.some.injEq, Content.lines.injEq, List.cons.injEq, Nat.cast_inj, and_true] at hN
          exact fin _ (by omega) (fun h => by
            simp [applyWrites, Function.update_apply, hPP, hPL, h]) (by omega)
  | @grid m evs n t w hw ih =>
    obtain ⟨iA, iB⟩ := ih
    have hmem : ∀ ev ∈ evs, ev ∈ evs ++ [.grid n t w] := fun ev h => List.mem_append_left _ h
    refine ⟨fun D => ?_, fun ws hws D hD N hN k hk => ?_⟩
    · rw [diskAfter_append]
      refine ⟨by rw [diskAfter_grid, if_neg (by rw [hLG]; exact id)]; exact (iA D).1, fun k hk => ?_⟩
      refine ((iA D).2 k hk).mono hmem ?_
      rw [diskAfter_grid, if_neg (by rw [hPG]; exact id)]
    · rw [List.flatMap_append] at hws
      rcases prefix_append hws with h | ⟨c, rfl, hc⟩
      · exact (iB ws h D hD N hN k hk).mono hmem rfl
      · have hsame : ∀ f, (∀ n, f ≠ gridFile n) → ∀ D' : Disk, applyWrites c D' ⟪o, f⟫ = D' ⟪o, f⟫ := by
          intro f hf D'
          refine applyWrites_of_not_mem fun x hx => ?_
          have hx := hc.subset hx
          simp only [List.flatMap_cons, List.flatMap_nil, fileWrites, List.append_nil, List.mem_cons,
            List.not_mem_nil, or_false] at hx
          rcases hx with rfl | rfl <;> rw [Ne, outPath_inj] <;> exact (hf n).symm
        rw [applyWrites_append, hsame _ fun n => (grid_ne_last n).symm] at hN
        change diskAfter R o evs D _ = _ at hN
        rw [(iA D).1] at hN
        simp only [Option.some.injEq, Content.lines.injEq, List.cons.injEq, Nat.cast_inj, and_true] at hN
        rw [applyWrites_append]
        exact ((iA D).2 k (by omega)).mono hmem (hsame _ (fun n => particle_ne_grid k n) _)
  | @timing m evs n hw ih =>
    obtain ⟨iA, iB⟩ := ih
    have hmem : ∀ ev ∈ evs, ev ∈ evs ++ [.timing n] := fun ev h => List.mem_append_left _ h
    refine ⟨fun D => ?_, fun ws hws D hD N hN k hk => ?_⟩
    · rw [diskAfter_append]
      refine ⟨by rw [diskAfter_timing, if_neg (by rw [hLT]; exact id)]; exact (iA D).1, fun k hk => ?_⟩
      refine ((iA D).2 k hk).mono hmem ?_
      rw [diskAfter_timing, if_neg (by rw [hPT]; exact id)]
    · rw [List.flatMap_append] at hws
      rcases prefix_append hws with h | ⟨c, rfl, hc⟩
      · exact (iB ws h D hD N hN k hk).mono hmem rfl
      · have hsame : ∀ f, f ≠ timingFile → ∀ D' : Disk, applyWrites c D' ⟪o, f⟫ = D' ⟪o, f⟫ := by
          intro f hf D'
          refine applyWrites_of_not_mem fun x hx => ?_
          have hx := hc.subset hx
          simp only [List.flatMap_cons, List.flatMap_nil, fileWrites, List.append_nil, List.mem_cons,
            List.not_mem_nil, or_false] at hx
          rcases hx with rfl | rfl <;> rw [Ne, outPath_inj] <;> exact hf.symm
        rw [applyWrites_append, hsame _ last_ne_timing] at hN
        change diskAfter R o evs D _ = _ at hN
        rw [(iA D).1] at hN
        simp only [Option.some.injEq, Content.lines.injEq, List.cons.injEq, Nat.cast_inj, and_true] at hN
        rw [applyWrites_append]
        exact ((iA D).2 k (by omega)).mono hmem (hsame _ (particle_ne_timing k) _)

lemma run_written (hsave : R.C.saveSim = true) (ha : accepted i R.m.elastic R.m.plastic e = true)
    {r : LoopState (d + 2) (World (d + 2))}
    (h : runProgram R i e fuel s = .finished r ∨ runProgram R i e fuel s = .failed r ∨
      runProgram R i e fuel s = .outOfFuel r) :
    ∃ new, r.out = s.out ++ new ∧ Written r.frame new := by
  simp only [runProgram, ha, if_true, simulate_eq ha] at h
  refine written_loop hsave fuel _ [.info, .particles 0 0 (fillMuI R.m R.S.P.useMibf s.w)] ?_ ?_ r h
  · simp only [startState, hsave, if_true]
  · rw [start_frame]; exact .start _

/-- **C84** The directory of a run that has ended in any way (completed, given up after a failed return
mapping, or still running: `fuel` is the number of steps made so far). `last_written.txt` holds the number of the
last saved frame, and the particle files of all frames up to it are complete. -/
theorem C84_aborted (hd : d ≤ 1) (hsave : R.C.saveSim = true)
    (ha : accepted i R.m.elastic R.m.plastic e = true) {r : LoopState (d + 2) (World (d + 2))}
    (h : runProgram R i e fuel s = .finished r ∨ runProgram R i e fuel s = .failed r ∨
      runProgram R i e fuel s = .outOfFuel r) (o : Output) :
    ∃ new, r.out = s.out ++ new ∧ ∀ D : Disk,
      diskAfter R o new D ⟪o, lastWrittenFile⟫ = some (.lines [(r.frame : ℝ)]) ∧
      ∀ k ≤ r.frame, ∃ t w f, .particles k t w ∈ new ∧
        diskAfter R o new D ⟪o, particleFile k⟫ = some (.ply f) ∧
        ShowsParticles R.m R.S.P.useMibf f w.ps := by
  obtain ⟨new, hn, hw⟩ := run_written hsave ha h
  refine ⟨new, hn, fun D => ⟨((written_complete (R := R) (o := o) hw).1 D).1, fun k hk => ?_⟩⟩
  obtain ⟨t, w, h1, h2⟩ := ((written_complete (R := R) (o := o) hw).1 D).2 k hk
  exact ⟨t, w, _, h1, h2, C85_particles (by omega) _ _ _⟩

/-- **C84** The directory at any moment of a run, also between and during the writing of two files (`ws`: what
has been written so far), if it was empty before. If `last_written.txt` says `N`, the particle files of the
frames before `N` are complete. -/
theorem C84_anytime (hd : d ≤ 1) (hsave : R.C.saveSim = true)
    (ha : accepted i R.m.elastic R.m.plastic e = true) {r : LoopState (d + 2) (World (d + 2))}
    (h : runProgram R i e fuel s = .finished r ∨ runProgram R i e fuel s = .failed r ∨
      runProgram R i e fuel s = .outOfFuel r) (o : Output) :
    ∃ new, r.out = s.out ++ new ∧ ∀ ws, ws <+: new.flatMap (fileWrites R o) →
      ∀ D : Disk, D ⟪o, lastWrittenFile⟫ = none →
      ∀ N : ℕ, applyWrites ws D ⟪o, lastWrittenFile⟫ = some (.lines [(N : ℝ)]) →
      ∀ k < N, ∃ t w f, .particles k t w ∈ new ∧
        applyWrites ws D ⟪o, particleFile k⟫ = some (.ply f) ∧
        ShowsParticles R.m R.S.P.useMibf f w.ps := by
  obtain ⟨new, hn, hw⟩ := run_written hsave ha h
  refine ⟨new, hn, fun ws hws D hD N hN k hk => ?_⟩
  obtain ⟨t, w, h1, h2⟩ := (written_complete (R := R) (o := o) hw).2 ws hws D hD N hN k hk
  exact ⟨t, w, _, h1, h2, C85_particles (by omega) _ _ _⟩

lemma written_start {m : ℕ} {W : Type*} {evs : List (Event W)} (hw : Written m evs) :
    ∃ w rest, evs = [.info, .particles 0 0 w] ++ rest := by
  induction hw with
  | start w => exact ⟨w, [], rfl⟩
  | particles t w _ _ ih => obtain ⟨w, rest, rfl⟩ := ih; exact ⟨w, _, List.append_assoc _ _ _⟩
  | grid n t w _ ih => obtain ⟨w, rest, rfl⟩ := ih; exact ⟨w, _, List.append_assoc _ _ _⟩
  | timing k _ ih => obtain ⟨w, rest, rfl⟩ := ih; exact ⟨w, _, List.append_assoc _ _ _⟩

/-- **C84** The frame named in `last_written.txt` itself need not be complete: in every run there is a moment at
which the file says `0` while the particle file of frame 0 is not known to be complete. -/
theorem C84_last_written_false (hsave : R.C.saveSim = true)
    (ha : accepted i R.m.elastic R.m.plastic e = true) {r : LoopState (d + 2) (World (d + 2))}
    (h : runProgram R i e fuel s = .finished r ∨ runProgram R i e fuel s = .failed r ∨
      runProgram R i e fuel s = .outOfFuel r) (o : Output) :
    ∃ new, r.out = s.out ++ new ∧ ∃ ws, ws <+: new.flatMap (fileWrites R o) ∧ ∀ D : Disk,
      applyWrites ws D ⟪o, lastWrittenFile⟫ = some (.lines [((0 : ℕ) : ℝ)]) ∧
      applyWrites ws D ⟪o, particleFile 0⟫ = some .unfinished := by
  obtain ⟨new, hn, hw⟩ := run_written hsave ha h
  obtain ⟨w, rest, rfl⟩ := written_start hw
  refine ⟨_, hn, ((fileWrites R o .info) ++ (fileWrites R o (.particles 0 0 w)).take 3), ?_, fun D => ?_⟩
  · rw [List.flatMap_append]
    refine List.IsPrefix.trans ?_ (List.prefix_append _ _)
    simp only [List.flatMap_cons, List.flatMap_nil, List.append_nil]
    rw [List.prefix_append_right_inj]
    exact List.take_prefix _ _
  · have h1 : (⟪o, particleFile 0⟫ = ⟪o, lastWrittenFile⟫) = False := by
      rw [outPath_inj]; exact eq_false (particle_ne_last 0)
    constructor
    · simp [applyWrites, fileWrites, Function.update_apply]
    · simp [applyWrites, fileWrites, Function.update_apply, h1]

/-! ### `info.txt` -/

/-- **C84** The numbers in `info.txt` and `info_timing.txt` that are not integers have six significant digits:
their relative error is at most 5e-6. -/
theorem C84_printed (x : ℝ) : |printed x - x| ≤ 5e-6 * |x| := by
  rw [printed]
  split_ifs with hx
  · subst hx; simp
  set u : ℝ := (10 : ℝ) ^ (Int.log 10 |x| - 5) with hu
  have hu0 : 0 < u := by positivity
  have hxp : 0 < |x| := abs_pos.mpr hx
  have hlog := Int.zpow_log_le_self (b := 10) (by norm_num) hxp
  have hux : u * 10 ^ 5 ≤ |x| := by
    refine le_trans (le_of_eq ?_) hlog
    rw [hu, zpow_sub₀ (by norm_num)]
    norm_num
  have e : (round (x / u) : ℝ) * u - x = (round (x / u) - x / u) * u := by
    field_simp
  rw [e, abs_mul, abs_of_pos hu0, abs_sub_comm]
  have := abs_sub_round (x / u)
  nlinarith

/-- **C84** Integers of at most six digits (such as the usual `fps`) are printed exactly. -/
theorem C84_printed_nat (n : ℕ) (hn : n < 10 ^ 6) : printed n = n := by
  rw [printed]
  split_ifs with hx
  · rw [hx]
  have hn0 : n ≠ 0 := by exact_mod_cast hx
  have hlog : Int.log 10 |(n : ℝ)| = (Nat.log 10 n : ℤ) := by
    rw [abs_of_nonneg (Nat.cast_nonneg n), Int.log_natCast]
  have hl5 : Nat.log 10 n ≤ 5 := by
    have := Nat.log_lt_of_lt_pow hn0 hn
    omega
  have hz : (10 : ℝ) ^ (Int.log 10 |(n : ℝ)| - 5) = ((10 : ℝ) ^ (5 - Nat.log 10 n))⁻¹ := by
    rw [hlog, ← zpow_natCast, ← zpow_neg]
    congr 1
    push_cast [Nat.cast_sub hl5]
    ring
  have hp : ((10 : ℝ) ^ (5 - Nat.log 10 n)) ≠ 0 := by positivity
  rw [hz, div_inv_eq_mul]
  have : (n : ℝ) * 10 ^ (5 - Nat.log 10 n) = ((n * 10 ^ (5 - Nat.log 10 n) : ℤ) : ℝ) := by push_cast; ring
  rw [this, round_intCast]
  push_cast
  field_simp

/-- **C84** In general the grid spacing read from `info.txt` is not the one of the run. -/
theorem C84_printed_false : printed 1.234567 ≠ 1.234567 := by
  have hlog : Int.log 10 |(1.234567 : ℝ)| = 0 := by
    rw [abs_of_pos (by norm_num), Int.log_of_one_le_right _ (by norm_num)]
    have : ⌊(1.234567 : ℝ)⌋₊ = 1 := by
      rw [Nat.floor_eq_iff (by norm_num)]; norm_num
    rw [this]; simp
  rw [printed, if_neg (by norm_num), hlog]
  have : round ((1.234567 : ℝ) / 10 ^ ((0 : ℤ) - 5)) = 123457 := by
    rw [round_eq, Int.floor_eq_iff]
    norm_num [zpow_neg]
  rw [this]
  norm_num [zpow_neg]

end
end Verif.Props
