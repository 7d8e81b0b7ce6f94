import Verif.Model.Files
import Verif.Props.GridFile

/-!
# Names, tables and later contents of files
-/

set_option linter.unusedSectionVars false
set_option linter.unusedSimpArgs false
set_option linter.unusedVariables false

namespace Verif
open Matrix

/-! ### names -/

lemma natString_inj {a b : ℕ} (h : toString a = toString b) : a = b := by
  have h' : Nat.toDigits 10 a = Nat.toDigits 10 b := by
    rw [← Nat.toList_repr, ← Nat.toList_repr]
    exact congrArg String.toList h
  rw [← Nat.ofDigitChars_ten_toDigits (n := a), h', Nat.ofDigitChars_ten_toDigits]

lemma particleFile_inj {a b : ℕ} : particleFile a = particleFile b ↔ a = b := by
  constructor
  · intro h
    simp only [particleFile, String.append_assoc, String.append_right_inj] at h
    exact natString_inj ((String.append_left_inj _).mp h)
  · rintro rfl; rfl

lemma gridFile_inj {a b : ℕ} : gridFile a = gridFile b ↔ a = b := by
  constructor
  · intro h
    simp only [gridFile, String.append_assoc, String.append_right_inj] at h
    exact natString_inj ((String.append_left_inj _).mp h)
  · rintro rfl; rfl

/-- The first character of a name. -/
lemma head_ne {a b : String} (h : a.toList.head? ≠ b.toList.head?) : a ≠ b := by
  rintro rfl; exact h rfl

lemma particleFile_head (n : ℕ) : (particleFile n).toList.head? = some 'p' := by
  simp [particleFile, String.toList_append]
lemma gridFile_head (n : ℕ) : (gridFile n).toList.head? = some 'g' := by
  simp [gridFile, String.toList_append]

lemma particle_ne_grid (a b : ℕ) : particleFile a ≠ gridFile b :=
  head_ne (by rw [particleFile_head, gridFile_head]; decide)
lemma particle_ne_last (a : ℕ) : particleFile a ≠ lastWrittenFile :=
  head_ne (by rw [particleFile_head]; decide)
lemma particle_ne_info (a : ℕ) : particleFile a ≠ infoFile :=
  head_ne (by rw [particleFile_head]; decide)
lemma particle_ne_timing (a : ℕ) : particleFile a ≠ timingFile :=
  head_ne (by rw [particleFile_head]; decide)
lemma grid_ne_last (a : ℕ) : gridFile a ≠ lastWrittenFile :=
  head_ne (by rw [gridFile_head]; decide)
lemma grid_ne_info (a : ℕ) : gridFile a ≠ infoFile :=
  head_ne (by rw [gridFile_head]; decide)
lemma grid_ne_timing (a : ℕ) : gridFile a ≠ timingFile :=
  head_ne (by rw [gridFile_head]; decide)
lemma last_ne_info : lastWrittenFile ≠ infoFile := by decide
lemma last_ne_timing : lastWrittenFile ≠ timingFile := by decide
lemma info_ne_timing : infoFile ≠ timingFile := by decide

lemma outPath_inj {D N a b : String} : outPath D N a = outPath D N b ↔ a = b := by
  simp only [outPath, String.append_right_inj]

lemma before_slash {α : Type*} {c : α} : ∀ {l₁ l₂ r₁ r₂ : List α}, c ∉ l₁ → c ∉ l₂ →
    l₁ ++ c :: r₁ = l₂ ++ c :: r₂ → l₁ = l₂
  | [], [], _, _, _, _, _ => rfl
  | [], b :: l₂, _, _, _, h2, h => by
      simp only [List.nil_append, List.cons_append, List.cons.injEq] at h
      exact absurd (h.1 ▸ List.mem_cons_self) h2
  | a :: l₁, [], _, _, h1, _, h => by
      simp only [List.nil_append, List.cons_append, List.cons.injEq] at h
      exact absurd (h.1 ▸ List.mem_cons_self) h1
  | a :: l₁, b :: l₂, _, _, h1, h2, h => by
      simp only [List.cons_append, List.cons.injEq] at h
      rw [h.1, before_slash (fun hc => h1 (List.mem_cons_of_mem _ hc))
        (fun hc => h2 (List.mem_cons_of_mem _ hc)) h.2]

lemma outPath_name {D N N' a b : String} (hN : '/' ∉ N.toList) (hN' : '/' ∉ N'.toList)
    (h : outPath D N a = outPath D N' b) : N = N' := by
  simp only [outPath, String.append_assoc, String.append_right_inj] at h
  have h := congrArg String.toList h
  simp only [String.toList_append] at h
  exact String.toList_inj.mp (before_slash (c := '/') (r₁ := a.toList) (r₂ := b.toList) hN hN' h)

/-! ### later contents -/

lemma applyWrites_append (a b : List (String × Content)) (D : Disk) :
    applyWrites (a ++ b) D = applyWrites b (applyWrites a D) := by
  simp [applyWrites]

lemma applyWrites_of_not_mem {p : String} : ∀ {ws : List (String × Content)} {D : Disk},
    (∀ x ∈ ws, x.1 ≠ p) → applyWrites ws D p = D p
  | [], _, _ => rfl
  | x :: ws, D, h => by
    show applyWrites ws _ p = _
    rw [applyWrites_of_not_mem fun y hy => h y (List.mem_cons_of_mem _ hy)]
    exact Function.update_of_ne (h x List.mem_cons_self).symm _ _

section
variable {d : ℕ} {R : Setup d} {o : Output}

lemma diskAfter_append (a b : List (Event (World d))) (D : Disk) :
    diskAfter R o (a ++ b) D = diskAfter R o b (diskAfter R o a D) := by
  simp [diskAfter, applyWrites_append]

lemma diskAfter_nil (D : Disk) : diskAfter R o [] D = D := rfl

lemma diskAfter_info (D : Disk) (p : String) : diskAfter R o [.info] D p =
    if p = outPath o.directory o.simName infoFile then
      some (.lines [R.C.endFrame, printed R.C.fps, printed R.C.dx, o.np, printed R.S.P.particleVolume])
    else D p := by
  simp only [diskAfter, applyWrites, List.flatMap_cons, List.flatMap_nil, fileWrites, List.append_nil,
    List.foldl_cons, List.foldl_nil, Function.update_apply]
  split_ifs <;> rfl

lemma diskAfter_timing (n : ℕ) (D : Disk) (p : String) : diskAfter R o [.timing n] D p =
    if p = outPath o.directory o.simName timingFile then
      some (.lines ((n : ℝ) :: o.runtimes.map printed))
    else D p := by
  simp only [diskAfter, applyWrites, List.flatMap_cons, List.flatMap_nil, fileWrites, List.append_nil,
    List.foldl_cons, List.foldl_nil, Function.update_apply]
  split_ifs <;> rfl

lemma diskAfter_grid (n : ℕ) (t : ℝ) (w : World d) (D : Disk) (p : String) :
    diskAfter R o [.grid n t w] D p =
    if p = outPath o.directory o.simName (gridFile n) then
      some (.ply (writePly (gridGroups R.S.P.useMibf w)))
    else D p := by
  simp only [diskAfter, applyWrites, List.flatMap_cons, List.flatMap_nil, fileWrites, List.append_nil,
    List.foldl_cons, List.foldl_nil, Function.update_apply]
  split_ifs <;> rfl

lemma diskAfter_particles (n : ℕ) (t : ℝ) (w : World d) (D : Disk) (p : String) :
    diskAfter R o [.particles n t w] D p =
    if p = outPath o.directory o.simName (particleFile n) then
      some (.ply (writePly (particleGroups R.m R.S.P.useMibf w.ps)))
    else if p = outPath o.directory o.simName lastWrittenFile then some (.lines [(n : ℝ)])
    else D p := by
  simp only [diskAfter, applyWrites, List.flatMap_cons, List.flatMap_nil, fileWrites, List.append_nil,
    List.foldl_cons, List.foldl_nil, Function.update_apply]
  split_ifs <;> rfl

/-- Paths written by an event. -/
lemma fileWrites_path {ev : Event (World d)} {x : String × Content} (h : x ∈ fileWrites R o ev) :
    ∃ f, x.1 = outPath o.directory o.simName f := by
  cases ev <;> simp only [fileWrites, List.mem_cons, List.not_mem_nil, or_false] at h
  · rcases h with rfl | rfl <;> exact ⟨_, rfl⟩
  · rcases h with rfl | rfl | rfl | rfl <;> exact ⟨_, rfl⟩
  · rcases h with rfl | rfl <;> exact ⟨_, rfl⟩
  · rcases h with rfl | rfl <;> exact ⟨_, rfl⟩

end

/-! ### tables -/

/-- Values in constant-width rows. -/
lemma flatMap_getElem {α β : Type*} (f : α → List β) (W : ℕ) : ∀ (l : List α),
    (∀ a ∈ l, (f a).length = W) → ∀ (i j : ℕ) (hi : i < l.length), j < W →
    (l.flatMap f)[i * W + j]? = (f l[i])[j]?
  | [], _, i, _, hi, _ => absurd hi (by simp)
  | a :: l, h, 0, j, _, hj => by
    rw [List.flatMap_cons, Nat.zero_mul, Nat.zero_add,
      List.getElem?_append_left (by rw [h a List.mem_cons_self]; exact hj)]
    rfl
  | a :: l, h, i + 1, j, hi, hj => by
    have ha := h a List.mem_cons_self
    rw [List.flatMap_cons, List.getElem?_append_right (by rw [ha]; nlinarith), ha,
      show (i + 1) * W + j - W = i * W + j by rw [Nat.add_mul, Nat.one_mul]; omega,
      flatMap_getElem f W l (fun b hb => h b (List.mem_cons_of_mem _ hb)) i j
        (by simpa using hi) hj]
    rfl

lemma flatMap_length {α β : Type*} (f : α → List β) (W : ℕ) : ∀ (l : List α),
    (∀ a ∈ l, (f a).length = W) → (l.flatMap f).length = l.length * W
  | [], _ => by simp
  | a :: l, h => by
    rw [List.flatMap_cons, List.length_append, h a List.mem_cons_self,
      flatMap_length f W l fun b hb => h b (List.mem_cons_of_mem _ hb), List.length_cons]
    ring

/-- A table all of whose groups have a row per element of `ps`. -/
lemma writePly_eq {α : Type*} (ps : List α) (g : List String × (α → List ℝ))
    (gs : List (List String × (α → List ℝ))) :
    writePly ((g :: gs).map fun g => ⟨g.1, ps.map g.2⟩) =
      ⟨(g :: gs).flatMap fun g => g.1, ps.length, ps.flatMap fun p => (g :: gs).flatMap fun g => g.2 p⟩ := by
  have key : ∀ l : List α, (List.range l.length).flatMap (fun i =>
      ((g :: gs).map fun g : List String × (α → List ℝ) => (⟨g.1, l.map g.2⟩ : Group)).flatMap
        fun g => g.rows.getD i []) = l.flatMap fun p => (g :: gs).flatMap fun g => g.2 p := by
    intro l
    generalize hG : g :: gs = G
    have : ∀ i (hi : i < l.length), ((G.map fun g : List String × (α → List ℝ) =>
        (⟨g.1, l.map g.2⟩ : Group)).flatMap fun g => g.rows.getD i []) = G.flatMap fun g => g.2 l[i] := by
      intro i hi
      rw [List.flatMap_map]
      refine List.flatMap_congr fun a _ => ?_
      simp [List.getD, hi]
    have e : l.flatMap (fun p => G.flatMap fun g => g.2 p) =
        (List.finRange l.length).flatMap fun i => G.flatMap fun g => g.2 l[i] := by
      conv_lhs => rw [← List.map_getElem_finRange l]
      rw [List.flatMap_map]
      rfl
    rw [e, ← List.map_coe_finRange_eq_range, List.flatMap_map]
    refine List.flatMap_congr fun i _ => ?_
    exact this i i.2
  simp only [writePly, List.map_cons, List.head?_cons, Option.map_some, Option.getD_some,
    List.length_map]
  have := key ps
  simp only [List.map_cons] at this
  rw [this, ← List.map_cons (f := fun g : List String × (α → List ℝ) => (⟨g.1, ps.map g.2⟩ : Group)),
    List.flatMap_map]

end Verif
