import Verif.Lemmas.Files

/-!
# C85: the columns of the files
-/

set_option linter.unusedSectionVars false
set_option linter.unusedSimpArgs false
set_option linter.unusedVariables false

namespace Verif.Props
open Verif Matrix

/-! ### specification -/

/-- Reading a ply file: column `name` of `f` holds the values `col`, one per vertex. The values of a vertex
are stored one after the other, in the order of the properties. -/
def Column (f : Ply) (name : String) (col : List ℝ) : Prop :=
  name ∈ f.props ∧ f.count = col.length ∧
    ∀ i (h : i < col.length), f.data[i * f.props.length + f.props.idxOf name]? = some col[i]

/-- A table that can be read: no name twice, and one value per vertex and property. -/
structure Table (f : Ply) : Prop where
  nodup : f.props.Nodup
  size : f.data.length = f.count * f.props.length

/-- The particle file `f` shows the particles `ps` of a material `m`. -/
structure ShowsParticles {d : ℕ} (m : Material) (useMibf : Bool) (f : Ply) (ps : List (Particle d ℝ)) :
    Prop where
  table : Table f
  count : f.count = ps.length
  pos : ∀ a : Fin d, Column f (["x", "y", "z"].getD a "") (ps.map fun p => p.x a)
  vel : ∀ a : Fin d, Column f (["vx", "vy", "vz"].getD a "") (ps.map fun p => p.v a)
  pressure : Column f "p" (ps.map fun p => -(∑ a, p.tau a a) / (d : ℝ))
  shear : Column f "q" (ps.map fun p => m.qPrefac *
    √(∑ a, ∑ b, (p.tau a b - if a = b then (∑ c, p.tau c c) / (d : ℝ) else 0) ^ 2))
  volume : Column f "Je" (ps.map fun p => p.F.det)
  plastic : m.plastic ≠ .noPlasticity → Column f "eps_pl_vol" (ps.map fun p => p.epsPlVol) ∧
    Column f "eps_pl_dev" (ps.map fun p => p.epsPlDev) ∧
    Column f "delta_gamma" (ps.map fun p => p.deltaGamma)
  elastic : m.plastic = .noPlasticity → f.props.length = 2 * d + 3
  muI : m.plastic = .dpMui ∨ m.plastic = .mccMui ∨
    (useMibf = true ∧ (m.plastic = .dpVisc ∨ m.plastic = .mccVisc)) →
    Column f "muI" (ps.map fun p => p.muI)
  noMuI : ¬ (m.plastic = .dpMui ∨ m.plastic = .mccMui ∨
    (useMibf = true ∧ (m.plastic = .dpVisc ∨ m.plastic = .mccVisc))) → "muI" ∉ f.props
  viscosity : m.plastic = .dpMui ∨ m.plastic = .mccMui →
    Column f "viscosity" (ps.map fun p => p.viscosity)
  noViscosity : ¬ (m.plastic = .dpMui ∨ m.plastic = .mccMui) → "viscosity" ∉ f.props

/-- The grid file `f` shows the grid of the world `w`: node `(i, j(, k))` at the crossing of the grid
lines, in lexicographic order. -/
structure ShowsGrid {d : ℕ} (useMibf : Bool) (f : Ply) (w : World d) : Prop where
  table : Table f
  count : f.count = ∏ a, (w.g a).length
  pos : ∀ a : Fin d, Column f (["x", "y", "z"].getD a "")
    ((allNodes w.g.size).map fun i => (w.g a).getD (i a) 0)
  vel : ∀ a : Fin d, Column f (["vx", "vy", "vz"].getD a "")
    ((allNodes w.g.size).map fun i => w.vel (flatIndex w.g.size i) a)
  mass : Column f "mass" ((allNodes w.g.size).map fun i => w.mass (flatIndex w.g.size i))
  friction : useMibf = true → Column f "friction"
    ((allNodes w.g.size).map fun i => w.friction (flatIndex w.g.size i))

/-! ### C85 -/

section tables
variable {d : ℕ}

/-- A table with a row per element of `ps`, as written. -/
lemma column_of {α : Type*} {ps : List α} {g : List String × (α → List ℝ)}
    {gs : List (List String × (α → List ℝ))}
    (hlen : ∀ p ∈ ps, ((g :: gs).flatMap fun g => g.2 p).length = ((g :: gs).flatMap fun g => g.1).length)
    {name : String} {j : ℕ} (hj : ((g :: gs).flatMap fun g => g.1).idxOf name = j)
    (hlt : j < ((g :: gs).flatMap fun g => g.1).length) {val : α → ℝ}
    (hval : ∀ p, ((g :: gs).flatMap fun g => g.2 p)[j]? = some (val p)) :
    Column (writePly ((g :: gs).map fun g => ⟨g.1, ps.map g.2⟩)) name (ps.map val) := by
  rw [writePly_eq]
  refine ⟨?_, by simp, fun i h => ?_⟩
  · show name ∈ (g :: gs).flatMap fun g => g.1
    rw [← List.idxOf_lt_length_iff, hj]; exact hlt
  · simp only [List.length_map] at h
    show (List.flatMap _ _)[i * _ + List.idxOf name _]? = _
    rw [hj, flatMap_getElem _ _ ps hlen i j h hlt, hval]
    simp

lemma table_of {α : Type*} {ps : List α} {g : List String × (α → List ℝ)}
    {gs : List (List String × (α → List ℝ))}
    (hlen : ∀ p ∈ ps, ((g :: gs).flatMap fun g => g.2 p).length = ((g :: gs).flatMap fun g => g.1).length)
    (hnd : ((g :: gs).flatMap fun g => g.1).Nodup) :
    Table (writePly ((g :: gs).map fun g => ⟨g.1, ps.map g.2⟩)) := by
  rw [writePly_eq]
  exact ⟨hnd, flatMap_length _ _ ps hlen⟩

lemma count_of {α : Type*} {ps : List α} {g : List String × (α → List ℝ)}
    {gs : List (List String × (α → List ℝ))} :
    (writePly ((g :: gs).map fun g => ⟨g.1, ps.map g.2⟩)).count = ps.length := by
  rw [writePly_eq]

lemma savedQ_eq (q : ℝ) (tau : Matrix (Fin d) (Fin d) ℝ) : savedQ q tau =
    q * √(∑ a, ∑ b, (tau a b - if a = b then (∑ c, tau c c) / (d : ℝ) else 0) ^ 2) := by
  simp only [savedQ, selfDoubleDot, savedP, ← List.ofFn_eq_map, List.sum_ofFn]
  congr 2
  refine Finset.sum_congr rfl fun a _ => Finset.sum_congr rfl fun b _ => ?_
  simp only [Matrix.add_apply, Matrix.smul_apply, Matrix.one_apply, smul_eq_mul, Matrix.trace,
    Matrix.diag_apply]
  split_ifs <;> ring

lemma column_at {α : Type*} {ps : List α} {g : List String × (α → List ℝ)}
    {gs : List (List String × (α → List ℝ))}
    (hlen : ∀ p ∈ ps, ((g :: gs).flatMap fun g => g.2 p).length = ((g :: gs).flatMap fun g => g.1).length)
    (hnd : ((g :: gs).flatMap fun g => g.1).Nodup) {name : String} (j : ℕ)
    (hj : ((g :: gs).flatMap fun g => g.1)[j]? = some name) {val : α → ℝ}
    (hval : ∀ p, ((g :: gs).flatMap fun g => g.2 p)[j]? = some (val p)) :
    Column (writePly ((g :: gs).map fun g => ⟨g.1, ps.map g.2⟩)) name (ps.map val) := by
  obtain ⟨hlt, he⟩ := List.getElem?_eq_some_iff.mp hj
  refine column_of hlen ?_ hlt hval
  rw [← he]
  exact hnd.idxOf_getElem j hlt

lemma mui_iff {m : Material} {useMibf : Bool} :
    ((m.plastic = .dpVisc ∧ useMibf) ∨ (m.plastic = .mccVisc ∧ useMibf) ∨ m.plastic = .dpMui ∨
      m.plastic = .mccMui) ↔ (m.plastic = .dpMui ∨ m.plastic = .mccMui ∨
      (useMibf = true ∧ (m.plastic = .dpVisc ∨ m.plastic = .mccVisc))) := by
  tauto

lemma shows_particles2 (m : Material) (useMibf : Bool) (ps : List (Particle 2 ℝ)) :
    ShowsParticles m useMibf (writePly (particleGroups m useMibf ps)) ps := by
  by_cases hp : m.plastic = .noPlasticity
  · have hgs : particleGroups m useMibf ps = ([(["x", "y"], fun p => List.ofFn p.x), (["vx", "vy"], fun p => List.ofFn p.v),
        (["p"], fun p => [savedP p.tau]), (["q"], fun p => [savedQ m.qPrefac p.tau]),
        (["Je"], fun p => [p.F.det])] :
        List (List String × (Particle 2 ℝ → List ℝ))).map fun g => ⟨g.1, ps.map g.2⟩ := by
      simp [particleGroups, hp]
    have hlen : ∀ p ∈ ps, (([(["x", "y"], fun p => List.ofFn p.x), (["vx", "vy"], fun p => List.ofFn p.v),
        (["p"], fun p => [savedP p.tau]), (["q"], fun p => [savedQ m.qPrefac p.tau]),
        (["Je"], fun p => [p.F.det])] :
        List (List String × (Particle 2 ℝ → List ℝ))).flatMap fun g => g.2 p).length =
        (([(["x", "y"], fun p => List.ofFn p.x), (["vx", "vy"], fun p => List.ofFn p.v),
        (["p"], fun p => [savedP p.tau]), (["q"], fun p => [savedQ m.qPrefac p.tau]),
        (["Je"], fun p => [p.F.det])] :
        List (List String × (Particle 2 ℝ → List ℝ))).flatMap fun g => g.1).length := fun _ _ => rfl
    have hnd : (([(["x", "y"], fun p => List.ofFn p.x), (["vx", "vy"], fun p => List.ofFn p.v),
        (["p"], fun p => [savedP p.tau]), (["q"], fun p => [savedQ m.qPrefac p.tau]),
        (["Je"], fun p => [p.F.det])] :
        List (List String × (Particle 2 ℝ → List ℝ))).flatMap fun g => g.1).Nodup := by
      simp
    rw [hgs]
    exact ⟨table_of hlen hnd, count_of,
      fun a => by fin_cases a <;> [exact column_at hlen hnd 0 rfl (fun p => rfl); exact column_at hlen hnd 1 rfl (fun p => rfl)],
      fun a => by fin_cases a <;> [exact column_at hlen hnd 2 rfl (fun p => rfl); exact column_at hlen hnd 3 rfl (fun p => rfl)],
      column_at hlen hnd 4 rfl (fun p => rfl),
      by simp only [← savedQ_eq]; exact column_at hlen hnd 5 rfl (fun p => rfl),
      column_at hlen hnd 6 rfl (fun p => rfl),
      fun h => absurd hp h,
      fun _ => rfl,
      fun h => by simp [hp] at h,
      fun _ => by simp [writePly],
      fun h => by simp [hp] at h,
      fun _ => by simp [writePly]⟩

  by_cases hv : m.plastic = .dpMui ∨ m.plastic = .mccMui
  · have hu : (m.plastic = .dpVisc ∧ useMibf) ∨ (m.plastic = .mccVisc ∧ useMibf) ∨ m.plastic = .dpMui ∨
      m.plastic = .mccMui := .inr (.inr hv)
    have hgs : particleGroups m useMibf ps = ([(["x", "y"], fun p => List.ofFn p.x), (["vx", "vy"], fun p => List.ofFn p.v),
        (["p"], fun p => [savedP p.tau]), (["q"], fun p => [savedQ m.qPrefac p.tau]),
        (["Je"], fun p => [p.F.det]), (["eps_pl_vol"], fun p => [p.epsPlVol]),
        (["eps_pl_dev"], fun p => [p.epsPlDev]), (["delta_gamma"], fun p => [p.deltaGamma]),
        (["muI"], fun p => [p.muI]), (["viscosity"], fun p => [p.viscosity])] :
        List (List String × (Particle 2 ℝ → List ℝ))).map fun g => ⟨g.1, ps.map g.2⟩ := by
      unfold particleGroups; rw [if_pos hp, if_pos hu, if_pos hv]; rfl
    have hlen : ∀ p ∈ ps, (([(["x", "y"], fun p => List.ofFn p.x), (["vx", "vy"], fun p => List.ofFn p.v),
        (["p"], fun p => [savedP p.tau]), (["q"], fun p => [savedQ m.qPrefac p.tau]),
        (["Je"], fun p => [p.F.det]), (["eps_pl_vol"], fun p => [p.epsPlVol]),
        (["eps_pl_dev"], fun p => [p.epsPlDev]), (["delta_gamma"], fun p => [p.deltaGamma]),
        (["muI"], fun p => [p.muI]), (["viscosity"], fun p => [p.viscosity])] :
        List (List String × (Particle 2 ℝ → List ℝ))).flatMap fun g => g.2 p).length =
        (([(["x", "y"], fun p => List.ofFn p.x), (["vx", "vy"], fun p => List.ofFn p.v),
        (["p"], fun p => [savedP p.tau]), (["q"], fun p => [savedQ m.qPrefac p.tau]),
        (["Je"], fun p => [p.F.det]), (["eps_pl_vol"], fun p => [p.epsPlVol]),
        (["eps_pl_dev"], fun p => [p.epsPlDev]), (["delta_gamma"], fun p => [p.deltaGamma]),
        (["muI"], fun p => [p.muI]), (["viscosity"], fun p => [p.viscosity])] :
        List (List String × (Particle 2 ℝ → List ℝ))).flatMap fun g => g.1).length := fun _ _ => rfl
    have hnd : (([(["x", "y"], fun p => List.ofFn p.x), (["vx", "vy"], fun p => List.ofFn p.v),
        (["p"], fun p => [savedP p.tau]), (["q"], fun p => [savedQ m.qPrefac p.tau]),
        (["Je"], fun p => [p.F.det]), (["eps_pl_vol"], fun p => [p.epsPlVol]),
        (["eps_pl_dev"], fun p => [p.epsPlDev]), (["delta_gamma"], fun p => [p.deltaGamma]),
        (["muI"], fun p => [p.muI]), (["viscosity"], fun p => [p.viscosity])] :
        List (List String × (Particle 2 ℝ → List ℝ))).flatMap fun g => g.1).Nodup := by
      simp
    rw [hgs]
    exact ⟨table_of hlen hnd, count_of,
      fun a => by fin_cases a <;> [exact column_at hlen hnd 0 rfl (fun p => rfl); exact column_at hlen hnd 1 rfl (fun p => rfl)],
      fun a => by fin_cases a <;> [exact column_at hlen hnd 2 rfl (fun p => rfl); exact column_at hlen hnd 3 rfl (fun p => rfl)],
      column_at hlen hnd 4 rfl (fun p => rfl),
      by simp only [← savedQ_eq]; exact column_at hlen hnd 5 rfl (fun p => rfl),
      column_at hlen hnd 6 rfl (fun p => rfl),
      fun _ => ⟨column_at hlen hnd 7 rfl (fun p => rfl), column_at hlen hnd 8 rfl (fun p => rfl), column_at hlen hnd 9 rfl (fun p => rfl)⟩,
      fun h => absurd h hp,
      fun _ => column_at hlen hnd 10 rfl (fun p => rfl),
      fun h => absurd (mui_iff.mp hu) h,
      fun _ => column_at hlen hnd 11 rfl (fun p => rfl),
      fun h => absurd hv h⟩

  by_cases hu : (m.plastic = .dpVisc ∧ useMibf) ∨ (m.plastic = .mccVisc ∧ useMibf) ∨ m.plastic = .dpMui ∨
      m.plastic = .mccMui
  · have hgs : particleGroups m useMibf ps = ([(["x", "y"], fun p => List.ofFn p.x), (["vx", "vy"], fun p => List.ofFn p.v),
        (["p"], fun p => [savedP p.tau]), (["q"], fun p => [savedQ m.qPrefac p.tau]),
        (["Je"], fun p => [p.F.det]), (["eps_pl_vol"], fun p => [p.epsPlVol]),
        (["eps_pl_dev"], fun p => [p.epsPlDev]), (["delta_gamma"], fun p => [p.deltaGamma]),
        (["muI"], fun p => [p.muI])] :
        List (List String × (Particle 2 ℝ → List ℝ))).map fun g => ⟨g.1, ps.map g.2⟩ := by
      unfold particleGroups; rw [if_pos hp, if_pos hu, if_neg hv]; rfl
    have hlen : ∀ p ∈ ps, (([(["x", "y"], fun p => List.ofFn p.x), (["vx", "vy"], fun p => List.ofFn p.v),
        (["p"], fun p => [savedP p.tau]), (["q"], fun p => [savedQ m.qPrefac p.tau]),
        (["Je"], fun p => [p.F.det]), (["eps_pl_vol"], fun p => [p.epsPlVol]),
        (["eps_pl_dev"], fun p => [p.epsPlDev]), (["delta_gamma"], fun p => [p.deltaGamma]),
        (["muI"], fun p => [p.muI])] :
        List (List String × (Particle 2 ℝ → List ℝ))).flatMap fun g => g.2 p).length =
        (([(["x", "y"], fun p => List.ofFn p.x), (["vx", "vy"], fun p => List.ofFn p.v),
        (["p"], fun p => [savedP p.tau]), (["q"], fun p => [savedQ m.qPrefac p.tau]),
        (["Je"], fun p => [p.F.det]), (["eps_pl_vol"], fun p => [p.epsPlVol]),
        (["eps_pl_dev"], fun p => [p.epsPlDev]), (["delta_gamma"], fun p => [p.deltaGamma]),
        (["muI"], fun p => [p.muI])] :
        List (List String × (Particle 2 ℝ → List ℝ))).flatMap fun g => g.1).length := fun _ _ => rfl
    have hnd : (([(["x", "y"], fun p => List.ofFn p.x), (["vx", "vy"], fun p => List.ofFn p.v),
        (["p"], fun p => [savedP p.tau]), (["q"], fun p => [savedQ m.qPrefac p.tau]),
        (["Je"], fun p => [p.F.det]), (["eps_pl_vol"], fun p => [p.epsPlVol]),
        (["eps_pl_dev"], fun p => [p.epsPlDev]), (["delta_gamma"], fun p => [p.deltaGamma]),
        (["muI"], fun p => [p.muI])] :
        List (List String × (Particle 2 ℝ → List ℝ))).flatMap fun g => g.1).Nodup := by
      simp
    rw [hgs]
    exact ⟨table_of hlen hnd, count_of,
      fun a => by fin_cases a <;> [exact column_at hlen hnd 0 rfl (fun p => rfl); exact column_at hlen hnd 1 rfl (fun p => rfl)],
      fun a => by fin_cases a <;> [exact column_at hlen hnd 2 rfl (fun p => rfl); exact column_at hlen hnd 3 rfl (fun p => rfl)],
      column_at hlen hnd 4 rfl (fun p => rfl),
      by simp only [← savedQ_eq]; exact column_at hlen hnd 5 rfl (fun p => rfl),
      column_at hlen hnd 6 rfl (fun p => rfl),
      fun _ => ⟨column_at hlen hnd 7 rfl (fun p => rfl), column_at hlen hnd 8 rfl (fun p => rfl), column_at hlen hnd 9 rfl (fun p => rfl)⟩,
      fun h => absurd h hp,
      fun _ => column_at hlen hnd 10 rfl (fun p => rfl),
      fun h => absurd (mui_iff.mp hu) h,
      fun h => absurd h hv,
      fun _ => by simp [writePly]⟩

  · have hgs : particleGroups m useMibf ps = ([(["x", "y"], fun p => List.ofFn p.x), (["vx", "vy"], fun p => List.ofFn p.v),
        (["p"], fun p => [savedP p.tau]), (["q"], fun p => [savedQ m.qPrefac p.tau]),
        (["Je"], fun p => [p.F.det]), (["eps_pl_vol"], fun p => [p.epsPlVol]),
        (["eps_pl_dev"], fun p => [p.epsPlDev]), (["delta_gamma"], fun p => [p.deltaGamma])] :
        List (List String × (Particle 2 ℝ → List ℝ))).map fun g => ⟨g.1, ps.map g.2⟩ := by
      unfold particleGroups; rw [if_pos hp, if_neg hu, if_neg hv]; rfl
    have hlen : ∀ p ∈ ps, (([(["x", "y"], fun p => List.ofFn p.x), (["vx", "vy"], fun p => List.ofFn p.v),
        (["p"], fun p => [savedP p.tau]), (["q"], fun p => [savedQ m.qPrefac p.tau]),
        (["Je"], fun p => [p.F.det]), (["eps_pl_vol"], fun p => [p.epsPlVol]),
        (["eps_pl_dev"], fun p => [p.epsPlDev]), (["delta_gamma"], fun p => [p.deltaGamma])] :
        List (List String × (Particle 2 ℝ → List ℝ))).flatMap fun g => g.2 p).length =
        (([(["x", "y"], fun p => List.ofFn p.x), (["vx", "vy"], fun p => List.ofFn p.v),
        (["p"], fun p => [savedP p.tau]), (["q"], fun p => [savedQ m.qPrefac p.tau]),
        (["Je"], fun p => [p.F.det]), (["eps_pl_vol"], fun p => [p.epsPlVol]),
        (["eps_pl_dev"], fun p => [p.epsPlDev]), (["delta_gamma"], fun p => [p.deltaGamma])] :
        List (List String × (Particle 2 ℝ → List ℝ))).flatMap fun g => g.1).length := fun _ _ => rfl
    have hnd : (([(["x", "y"], fun p => List.ofFn p.x), (["vx", "vy"], fun p => List.ofFn p.v),
        (["p"], fun p => [savedP p.tau]), (["q"], fun p => [savedQ m.qPrefac p.tau]),
        (["Je"], fun p => [p.F.det]), (["eps_pl_vol"], fun p => [p.epsPlVol]),
        (["eps_pl_dev"], fun p => [p.epsPlDev]), (["delta_gamma"], fun p => [p.deltaGamma])] :
        List (List String × (Particle 2 ℝ → List ℝ))).flatMap fun g => g.1).Nodup := by
      simp
    rw [hgs]
    exact ⟨table_of hlen hnd, count_of,
      fun a => by fin_cases a <;> [exact column_at hlen hnd 0 rfl (fun p => rfl); exact column_at hlen hnd 1 rfl (fun p => rfl)],
      fun a => by fin_cases a <;> [exact column_at hlen hnd 2 rfl (fun p => rfl); exact column_at hlen hnd 3 rfl (fun p => rfl)],
      column_at hlen hnd 4 rfl (fun p => rfl),
      by simp only [← savedQ_eq]; exact column_at hlen hnd 5 rfl (fun p => rfl),
      column_at hlen hnd 6 rfl (fun p => rfl),
      fun _ => ⟨column_at hlen hnd 7 rfl (fun p => rfl), column_at hlen hnd 8 rfl (fun p => rfl), column_at hlen hnd 9 rfl (fun p => rfl)⟩,
      fun h => absurd h hp,
      fun h => absurd (mui_iff.mpr h) hu,
      fun _ => by simp [writePly],
      fun h => absurd h hv,
      fun _ => by simp [writePly]⟩

lemma shows_particles3 (m : Material) (useMibf : Bool) (ps : List (Particle 3 ℝ)) :
    ShowsParticles m useMibf (writePly (particleGroups m useMibf ps)) ps := by
  by_cases hp : m.plastic = .noPlasticity
  · have hgs : particleGroups m useMibf ps = ([(["x", "y", "z"], fun p => List.ofFn p.x), (["vx", "vy", "vz"], fun p => List.ofFn p.v),
        (["p"], fun p => [savedP p.tau]), (["q"], fun p => [savedQ m.qPrefac p.tau]),
        (["Je"], fun p => [p.F.det])] :
        List (List String × (Particle 3 ℝ → List ℝ))).map fun g => ⟨g.1, ps.map g.2⟩ := by
      simp [particleGroups, hp]
    have hlen : ∀ p ∈ ps, (([(["x", "y", "z"], fun p => List.ofFn p.x), (["vx", "vy", "vz"], fun p => List.ofFn p.v),
        (["p"], fun p => [savedP p.tau]), (["q"], fun p => [savedQ m.qPrefac p.tau]),
        (["Je"], fun p => [p.F.det])] :
        List (List String × (Particle 3 ℝ → List ℝ))).flatMap fun g => g.2 p).length =
        (([(["x", "y", "z"], fun p => List.ofFn p.x), (["vx", "vy", "vz"], fun p => List.ofFn p.v),
        (["p"], fun p => [savedP p.tau]), (["q"], fun p => [savedQ m.qPrefac p.tau]),
        (["Je"], fun p => [p.F.det])] :
        List (List String × (Particle 3 ℝ → List ℝ))).flatMap fun g => g.1).length := fun _ _ => rfl
    have hnd : (([(["x", "y", "z"], fun p => List.ofFn p.x), (["vx", "vy", "vz"], fun p => List.ofFn p.v),
        (["p"], fun p => [savedP p.tau]), (["q"], fun p => [savedQ m.qPrefac p.tau]),
        (["Je"], fun p => [p.F.det])] :
        List (List String × (Particle 3 ℝ → List ℝ))).flatMap fun g => g.1).Nodup := by
      simp
    rw [hgs]
    exact ⟨table_of hlen hnd, count_of,
      fun a => by fin_cases a <;> [exact column_at hlen hnd 0 rfl (fun p => rfl); exact column_at hlen hnd 1 rfl (fun p => rfl); exact column_at hlen hnd 2 rfl (fun p => rfl)],
      fun a => by fin_cases a <;> [exact column_at hlen hnd 3 rfl (fun p => rfl); exact column_at hlen hnd 4 rfl (fun p => rfl); exact column_at hlen hnd 5 rfl (fun p => rfl)],
      column_at hlen hnd 6 rfl (fun p => rfl),
      by simp only [← savedQ_eq]; exact column_at hlen hnd 7 rfl (fun p => rfl),
      column_at hlen hnd 8 rfl (fun p => rfl),
      fun h => absurd hp h,
      fun _ => rfl,
      fun h => by simp [hp] at h,
      fun _ => by simp [writePly],
      fun h => by simp [hp] at h,
      fun _ => by simp [writePly]⟩

  by_cases hv : m.plastic = .dpMui ∨ m.plastic = .mccMui
  · have hu : (m.plastic = .dpVisc ∧ useMibf) ∨ (m.plastic = .mccVisc ∧ useMibf) ∨ m.plastic = .dpMui ∨
      m.plastic = .mccMui := .inr (.inr hv)
    have hgs : particleGroups m useMibf ps = ([(["x", "y", "z"], fun p => List.ofFn p.x), (["vx", "vy", "vz"], fun p => List.ofFn p.v),
        (["p"], fun p => [savedP p.tau]), (["q"], fun p => [savedQ m.qPrefac p.tau]),
        (["Je"], fun p => [p.F.det]), (["eps_pl_vol"], fun p => [p.epsPlVol]),
        (["eps_pl_dev"], fun p => [p.epsPlDev]), (["delta_gamma"], fun p => [p.deltaGamma]),
        (["muI"], fun p => [p.muI]), (["viscosity"], fun p => [p.viscosity])] :
        List (List String × (Particle 3 ℝ → List ℝ))).map fun g => ⟨g.1, ps.map g.2⟩ := by
      unfold particleGroups; rw [if_pos hp, if_pos hu, if_pos hv]; rfl
    have hlen : ∀ p ∈ ps, (([(["x", "y", "z"], fun p => List.ofFn p.x), (["vx", "vy", "vz"], fun p => List.ofFn p.v),
        (["p"], fun p => [savedP p.tau]), (["q"], fun p => [savedQ m.qPrefac p.tau]),
        (["Je"], fun p => [p.F.det]), (["eps_pl_vol"], fun p => [p.epsPlVol]),
        (["eps_pl_dev"], fun p => [p.epsPlDev]), (["delta_gamma"], fun p => [p.deltaGamma]),
        (["muI"], fun p => [p.muI]), (["viscosity"], fun p => [p.viscosity])] :
        List (List String × (Particle 3 ℝ → List ℝ))).flatMap fun g => g.2 p).length =
        (([(["x", "y", "z"], fun p => List.ofFn p.x), (["vx", "vy", "vz"], fun p => List.ofFn p.v),
        (["p"], fun p => [savedP p.tau]), (["q"], fun p => [savedQ m.qPrefac p.tau]),
        (["Je"], fun p => [p.F.det]), (["eps_pl_vol"], fun p => [p.epsPlVol]),
        (["eps_pl_dev"], fun p => [p.epsPlDev]), (["delta_gamma"], fun p => [p.deltaGamma]),
        (["muI"], fun p => [p.muI]), (["viscosity"], fun p => [p.viscosity])] :
        List (List String × (Particle 3 ℝ → List ℝ))).flatMap fun g => g.1).length := fun _ _ => rfl
    have hnd : (([(["x", "y", "z"], fun p => List.ofFn p.x), (["vx", "vy", "vz"], fun p => List.ofFn p.v),
        (["p"], fun p => [savedP p.tau]), (["q"], fun p => [savedQ m.qPrefac p.tau]),
        (["Je"], fun p => [p.F.det]), (["eps_pl_vol"], fun p => [p.epsPlVol]),
        (["eps_pl_dev"], fun p => [p.epsPlDev]), (["delta_gamma"], fun p => [p.deltaGamma]),
        (["muI"], fun p => [p.muI]), (["viscosity"], fun p => [p.viscosity])] :
        List (List String × (Particle 3 ℝ → List ℝ))).flatMap fun g => g.1).Nodup := by
      simp
    rw [hgs]
    exact ⟨table_of hlen hnd, count_of,
      fun a => by fin_cases a <;> [exact column_at hlen hnd 0 rfl (fun p => rfl); exact column_at hlen hnd 1 rfl (fun p => rfl); exact column_at hlen hnd 2 rfl (fun p => rfl)],
      fun a => by fin_cases a <;> [exact column_at hlen hnd 3 rfl (fun p => rfl); exact column_at hlen hnd 4 rfl (fun p => rfl); exact column_at hlen hnd 5 rfl (fun p => rfl)],
      column_at hlen hnd 6 rfl (fun p => rfl),
      by simp only [← savedQ_eq]; exact column_at hlen hnd 7 rfl (fun p => rfl),
      column_at hlen hnd 8 rfl (fun p => rfl),
      fun _ => ⟨column_at hlen hnd 9 rfl (fun p => rfl), column_at hlen hnd 10 rfl (fun p => rfl), column_at hlen hnd 11 rfl (fun p => rfl)⟩,
      fun h => absurd h hp,
      fun _ => column_at hlen hnd 12 rfl (fun p => rfl),
      fun h => absurd (mui_iff.mp hu) h,
      fun _ => column_at hlen hnd 13 rfl (fun p => rfl),
      fun h => absurd hv h⟩

  by_cases hu : (m.plastic = .dpVisc ∧ useMibf) ∨ (m.plastic = .mccVisc ∧ useMibf) ∨ m.plastic = .dpMui ∨
      m.plastic = .mccMui
  · have hgs : particleGroups m useMibf ps = ([(["x", "y", "z"], fun p => List.ofFn p.x), (["vx", "vy", "vz"], fun p => List.ofFn p.v),
        (["p"], fun p => [savedP p.tau]), (["q"], fun p => [savedQ m.qPrefac p.tau]),
        (["Je"], fun p => [p.F.det]), (["eps_pl_vol"], fun p => [p.epsPlVol]),
        (["eps_pl_dev"], fun p => [p.epsPlDev]), (["delta_gamma"], fun p => [p.deltaGamma]),
        (["muI"], fun p => [p.muI])] :
        List (List String × (Particle 3 ℝ → List ℝ))).map fun g => ⟨g.1, ps.map g.2⟩ := by
      unfold particleGroups; rw [if_pos hp, if_pos hu, if_neg hv]; rfl
    have hlen : ∀ p ∈ ps, (([(["x", "y", "z"], fun p => List.ofFn p.x), (["vx", "vy", "vz"], fun p => List.ofFn p.v),
        (["p"], fun p => [savedP p.tau]), (["q"], fun p => [savedQ m.qPrefac p.tau]),
        (["Je"], fun p => [p.F.det]), (["eps_pl_vol"], fun p => [p.epsPlVol]),
        (["eps_pl_dev"], fun p => [p.epsPlDev]), (["delta_gamma"], fun p => [p.deltaGamma]),
        (["muI"], fun p => [p.muI])] :
        List (List String × (Particle 3 ℝ → List ℝ))).flatMap fun g => g.2 p).length =
        (([(["x", "y", "z"], fun p => List.ofFn p.x), (["vx", "vy", "vz"], fun p => List.ofFn p.v),
        (["p"], fun p => [savedP p.tau]), (["q"], fun p => [savedQ m.qPrefac p.tau]),
        (["Je"], fun p => [p.F.det]), (["eps_pl_vol"], fun p => [p.epsPlVol]),
        (["eps_pl_dev"], fun p => [p.epsPlDev]), (["delta_gamma"], fun p => [p.deltaGamma]),
        (["muI"], fun p => [p.muI])] :
        List (List String × (Particle 3 ℝ → List ℝ))).flatMap fun g => g.1).length := fun _ _ => rfl
    have hnd : (([(["x", "y", "z"], fun p => List.ofFn p.x), (["vx", "vy", "vz"], fun p => List.ofFn p.v),
        (["p"], fun p => [savedP p.tau]), (["q"], fun p => [savedQ m.qPrefac p.tau]),
        (["Je"], fun p => [p.F.det]), (["eps_pl_vol"], fun p => [p.epsPlVol]),
        (["eps_pl_dev"], fun p => [p.epsPlDev]), (["delta_gamma"], fun p => [p.deltaGamma]),
        (["muI"], fun p => [p.muI])] :
        List (List String × (Particle 3 ℝ → List ℝ))).flatMap fun g => g.1).Nodup := by
      simp
    rw [hgs]
    exact ⟨table_of hlen hnd, count_of,
      fun a => by fin_cases a <;> [exact column_at hlen hnd 0 rfl (fun p => rfl); exact column_at hlen hnd 1 rfl (fun p => rfl); exact column_at hlen hnd 2 rfl (fun p => rfl)],
      fun a => by fin_cases a <;> [exact column_at hlen hnd 3 rfl (fun p => rfl); exact column_at hlen hnd 4 rfl (fun p => rfl); exact column_at hlen hnd 5 rfl (fun p => rfl)],
      column_at hlen hnd 6 rfl (fun p => rfl),
      by simp only [← savedQ_eq]; exact column_at hlen hnd 7 rfl (fun p => rfl),
      column_at hlen hnd 8 rfl (fun p => rfl),
      fun _ => ⟨column_at hlen hnd 9 rfl (fun p => rfl), column_at hlen hnd 10 rfl (fun p => rfl), column_at hlen hnd 11 rfl (fun p => rfl)⟩,
      fun h => absurd h hp,
      fun _ => column_at hlen hnd 12 rfl (fun p => rfl),
      fun h => absurd (mui_iff.mp hu) h,
      fun h => absurd h hv,
      fun _ => by simp [writePly]⟩

  · have hgs : particleGroups m useMibf ps = ([(["x", "y", "z"], fun p => List.ofFn p.x), (["vx", "vy", "vz"], fun p => List.ofFn p.v),
        (["p"], fun p => [savedP p.tau]), (["q"], fun p => [savedQ m.qPrefac p.tau]),
        (["Je"], fun p => [p.F.det]), (["eps_pl_vol"], fun p => [p.epsPlVol]),
        (["eps_pl_dev"], fun p => [p.epsPlDev]), (["delta_gamma"], fun p => [p.deltaGamma])] :
        List (List String × (Particle 3 ℝ → List ℝ))).map fun g => ⟨g.1, ps.map g.2⟩ := by
      unfold particleGroups; rw [if_pos hp, if_neg hu, if_neg hv]; rfl
    have hlen : ∀ p ∈ ps, (([(["x", "y", "z"], fun p => List.ofFn p.x), (["vx", "vy", "vz"], fun p => List.ofFn p.v),
        (["p"], fun p => [savedP p.tau]), (["q"], fun p => [savedQ m.qPrefac p.tau]),
        (["Je"], fun p => [p.F.det]), (["eps_pl_vol"], fun p => [p.epsPlVol]),
        (["eps_pl_dev"], fun p => [p.epsPlDev]), (["delta_gamma"], fun p => [p.deltaGamma])] :
        List (List String × (Particle 3 ℝ → List ℝ))).flatMap fun g => g.2 p).length =
        (([(["x", "y", "z"], fun p => List.ofFn p.x), (["vx", "vy", "vz"], fun p => List.ofFn p.v),
        (["p"], fun p => [savedP p.tau]), (["q"], fun p => [savedQ m.qPrefac p.tau]),
        (["Je"], fun p => [p.F.det]), (["eps_pl_vol"], fun p => [p.epsPlVol]),
        (["eps_pl_dev"], fun p => [p.epsPlDev]), (["delta_gamma"], fun p => [p.deltaGamma])] :
        List (List String × (Particle 3 ℝ → List ℝ))).flatMap fun g => g.1).length := fun _ _ => rfl
    have hnd : (([(["x", "y", "z"], fun p => List.ofFn p.x), (["vx", "vy", "vz"], fun p => List.ofFn p.v),
        (["p"], fun p => [savedP p.tau]), (["q"], fun p => [savedQ m.qPrefac p.tau]),
        (["Je"], fun p => [p.F.det]), (["eps_pl_vol"], fun p => [p.epsPlVol]),
        (["eps_pl_dev"], fun p => [p.epsPlDev]), (["delta_gamma"], fun p => [p.deltaGamma])] :
        List (List String × (Particle 3 ℝ → List ℝ))).flatMap fun g => g.1).Nodup := by
      simp
    rw [hgs]
    exact ⟨table_of hlen hnd, count_of,
      fun a => by fin_cases a <;> [exact column_at hlen hnd 0 rfl (fun p => rfl); exact column_at hlen hnd 1 rfl (fun p => rfl); exact column_at hlen hnd 2 rfl (fun p => rfl)],
      fun a => by fin_cases a <;> [exact column_at hlen hnd 3 rfl (fun p => rfl); exact column_at hlen hnd 4 rfl (fun p => rfl); exact column_at hlen hnd 5 rfl (fun p => rfl)],
      column_at hlen hnd 6 rfl (fun p => rfl),
      by simp only [← savedQ_eq]; exact column_at hlen hnd 7 rfl (fun p => rfl),
      column_at hlen hnd 8 rfl (fun p => rfl),
      fun _ => ⟨column_at hlen hnd 9 rfl (fun p => rfl), column_at hlen hnd 10 rfl (fun p => rfl), column_at hlen hnd 11 rfl (fun p => rfl)⟩,
      fun h => absurd h hp,
      fun h => absurd (mui_iff.mpr h) hu,
      fun _ => by simp [writePly],
      fun h => absurd h hv,
      fun _ => by simp [writePly]⟩

/-- **C85** Every particle file of a 2D or 3D run can be read as a table: positions, velocities, pressure,
shear stress and elastic volume of the particles, in the order of the particles, under the names `x`,
`y`(, `z`), `vx`, `vy`(, `vz`), `p`, `q`, `Je`; with a plastic model also the plastic strains and
`delta_gamma`; `muI` and `viscosity` where the model has them. -/
theorem C85_particles (hd : d = 2 ∨ d = 3) (m : Material) (useMibf : Bool) (ps : List (Particle d ℝ)) :
    ShowsParticles m useMibf (writePly (particleGroups m useMibf ps)) ps := by
  rcases hd with rfl | rfl
  · exact shows_particles2 m useMibf ps
  · exact shows_particles3 m useMibf ps

lemma nodes_eq {d : ℕ} (w : World d) :
    List.range (gridNodes w.g.size) = (allNodes w.g.size).map (flatIndex w.g.size) :=
  (map_flatIndex_allNodes _).symm

lemma column_nodes {d : ℕ} {w : World d} {f : Ply} {name : String} {val : ℕ → ℝ}
    (h : Column f name ((List.range (gridNodes w.g.size)).map val)) {val' : (Fin d → ℕ) → ℝ}
    (hv : ∀ i, (∀ a, i a < (w.g a).length) → val (flatIndex w.g.size i) = val' i) :
    Column f name ((allNodes w.g.size).map val') := by
  rw [nodes_eq, List.map_map] at h
  have e : (allNodes w.g.size).map (val ∘ flatIndex w.g.size) = (allNodes w.g.size).map val' :=
    List.map_congr_left fun i hi => hv i (mem_allNodes.mp hi)
  rwa [e] at h

lemma savedPositions_at {d : ℕ} (w : World d) (i : Fin d → ℕ) (hi : ∀ a, i a < (w.g a).length) (a : Fin d) :
    (savedPositions w.g).2 (flatIndex w.g.size i) a = (w.g a).getD (i a) 0 :=
  congrFun (congrArg Prod.fst ((C16_saved_rows w.g w.vel w.mass).2 i hi)) a

lemma shows_grid2 (useMibf : Bool) (w : World 2) :
    ShowsGrid useMibf (writePly (gridGroups useMibf w)) w := by
  have hcount : gridNodes w.g.size = ∏ a, (w.g a).length := by
    rw [gridNodes, ← List.ofFn_eq_map, List.prod_ofFn]; rfl
  cases useMibf
  swap
  · have hgs : gridGroups true w = ([(["x", "y"], fun l => List.ofFn ((savedPositions w.g).2 l)), (["vx", "vy"], fun l => List.ofFn (w.vel l)),
        (["mass"], fun l => [w.mass l]),
        (["friction"], fun l => [w.friction l])] :
        List (List String × (ℕ → List ℝ))).map fun g => ⟨g.1, (List.range (gridNodes w.g.size)).map g.2⟩ := rfl
    have hlen : ∀ p ∈ List.range (gridNodes w.g.size), (([(["x", "y"], fun l => List.ofFn ((savedPositions w.g).2 l)), (["vx", "vy"], fun l => List.ofFn (w.vel l)),
        (["mass"], fun l => [w.mass l]),
        (["friction"], fun l => [w.friction l])] :
        List (List String × (ℕ → List ℝ))).flatMap fun g => g.2 p).length =
        (([(["x", "y"], fun l => List.ofFn ((savedPositions w.g).2 l)), (["vx", "vy"], fun l => List.ofFn (w.vel l)),
        (["mass"], fun l => [w.mass l]),
        (["friction"], fun l => [w.friction l])] :
        List (List String × (ℕ → List ℝ))).flatMap fun g => g.1).length := fun _ _ => rfl
    have hnd : (([(["x", "y"], fun l => List.ofFn ((savedPositions w.g).2 l)), (["vx", "vy"], fun l => List.ofFn (w.vel l)),
        (["mass"], fun l => [w.mass l]),
        (["friction"], fun l => [w.friction l])] :
        List (List String × (ℕ → List ℝ))).flatMap fun g => g.1).Nodup := by
      simp
    rw [hgs]
    exact ⟨table_of hlen hnd, by rw [count_of, List.length_range, hcount],
      fun a => by fin_cases a <;> [exact column_nodes (column_at hlen hnd 0 rfl (fun p => rfl)) fun i hi => savedPositions_at w i hi 0; exact column_nodes (column_at hlen hnd 1 rfl (fun p => rfl)) fun i hi => savedPositions_at w i hi 1],
      fun a => by fin_cases a <;> [exact column_nodes (column_at hlen hnd 2 rfl (fun p => rfl)) fun i hi => rfl; exact column_nodes (column_at hlen hnd 3 rfl (fun p => rfl)) fun i hi => rfl],
      column_nodes (column_at hlen hnd 4 rfl (fun p => rfl)) fun i hi => rfl,
      fun _ => column_nodes (column_at hlen hnd 5 rfl (fun p => rfl)) fun i hi => rfl⟩
  · have hgs : gridGroups false w = ([(["x", "y"], fun l => List.ofFn ((savedPositions w.g).2 l)), (["vx", "vy"], fun l => List.ofFn (w.vel l)),
        (["mass"], fun l => [w.mass l])] :
        List (List String × (ℕ → List ℝ))).map fun g => ⟨g.1, (List.range (gridNodes w.g.size)).map g.2⟩ := rfl
    have hlen : ∀ p ∈ List.range (gridNodes w.g.size), (([(["x", "y"], fun l => List.ofFn ((savedPositions w.g).2 l)), (["vx", "vy"], fun l => List.ofFn (w.vel l)),
        (["mass"], fun l => [w.mass l])] :
        List (List String × (ℕ → List ℝ))).flatMap fun g => g.2 p).length =
        (([(["x", "y"], fun l => List.ofFn ((savedPositions w.g).2 l)), (["vx", "vy"], fun l => List.ofFn (w.vel l)),
        (["mass"], fun l => [w.mass l])] :
        List (List String × (ℕ → List ℝ))).flatMap fun g => g.1).length := fun _ _ => rfl
    have hnd : (([(["x", "y"], fun l => List.ofFn ((savedPositions w.g).2 l)), (["vx", "vy"], fun l => List.ofFn (w.vel l)),
        (["mass"], fun l => [w.mass l])] :
        List (List String × (ℕ → List ℝ))).flatMap fun g => g.1).Nodup := by
      simp
    rw [hgs]
    exact ⟨table_of hlen hnd, by rw [count_of, List.length_range, hcount],
      fun a => by fin_cases a <;> [exact column_nodes (column_at hlen hnd 0 rfl (fun p => rfl)) fun i hi => savedPositions_at w i hi 0; exact column_nodes (column_at hlen hnd 1 rfl (fun p => rfl)) fun i hi => savedPositions_at w i hi 1],
      fun a => by fin_cases a <;> [exact column_nodes (column_at hlen hnd 2 rfl (fun p => rfl)) fun i hi => rfl; exact column_nodes (column_at hlen hnd 3 rfl (fun p => rfl)) fun i hi => rfl],
      column_nodes (column_at hlen hnd 4 rfl (fun p => rfl)) fun i hi => rfl,
      fun h => by cases h⟩
lemma shows_grid3 (useMibf : Bool) (w : World 3) :
    ShowsGrid useMibf (writePly (gridGroups useMibf w)) w := by
  have hcount : gridNodes w.g.size = ∏ a, (w.g a).length := by
    rw [gridNodes, ← List.ofFn_eq_map, List.prod_ofFn]; rfl
  cases useMibf
  swap
  · have hgs : gridGroups true w = ([(["x", "y", "z"], fun l => List.ofFn ((savedPositions w.g).2 l)), (["vx", "vy", "vz"], fun l => List.ofFn (w.vel l)),
        (["mass"], fun l => [w.mass l]),
        (["friction"], fun l => [w.friction l])] :
        List (List String × (ℕ → List ℝ))).map fun g => ⟨g.1, (List.range (gridNodes w.g.size)).map g.2⟩ := rfl
    have hlen : ∀ p ∈ List.range (gridNodes w.g.size), (([(["x", "y", "z"], fun l => List.ofFn ((savedPositions w.g).2 l)), (["vx", "vy", "vz"], fun l => List.ofFn (w.vel l)),
        (["mass"], fun l => [w.mass l]),
        (["friction"], fun l => [w.friction l])] :
        List (List String × (ℕ → List ℝ))).flatMap fun g => g.2 p).length =
        (([(["x", "y", "z"], fun l => List.ofFn ((savedPositions w.g).2 l)), (["vx", "vy", "vz"], fun l => List.ofFn (w.vel l)),
        (["mass"], fun l => [w.mass l]),
        (["friction"], fun l => [w.friction l])] :
        List (List String × (ℕ → List ℝ))).flatMap fun g => g.1).length := fun _ _ => rfl
    have hnd : (([(["x", "y", "z"], fun l => List.ofFn ((savedPositions w.g).2 l)), (["vx", "vy", "vz"], fun l => List.ofFn (w.vel l)),
        (["mass"], fun l => [w.mass l]),
        (["friction"], fun l => [w.friction l])] :
        List (List String × (ℕ → List ℝ))).flatMap fun g => g.1).Nodup := by
      simp
    rw [hgs]
    exact ⟨table_of hlen hnd, by rw [count_of, List.length_range, hcount],
      fun a => by fin_cases a <;> [exact column_nodes (column_at hlen hnd 0 rfl (fun p => rfl)) fun i hi => savedPositions_at w i hi 0; exact column_nodes (column_at hlen hnd 1 rfl (fun p => rfl)) fun i hi => savedPositions_at w i hi 1; exact column_nodes (column_at hlen hnd 2 rfl (fun p => rfl)) fun i hi => savedPositions_at w i hi 2],
      fun a => by fin_cases a <;> [exact column_nodes (column_at hlen hnd 3 rfl (fun p => rfl)) fun i hi => rfl; exact column_nodes (column_at hlen hnd 4 rfl (fun p => rfl)) fun i hi => rfl; exact column_nodes (column_at hlen hnd 5 rfl (fun p => rfl)) fun i hi => rfl],
      column_nodes (column_at hlen hnd 6 rfl (fun p => rfl)) fun i hi => rfl,
      fun _ => column_nodes (column_at hlen hnd 7 rfl (fun p => rfl)) fun i hi => rfl⟩
  · have hgs : gridGroups false w = ([(["x", "y", "z"], fun l => List.ofFn ((savedPositions w.g).2 l)), (["vx", "vy", "vz"], fun l => List.ofFn (w.vel l)),
        (["mass"], fun l => [w.mass l])] :
        List (List String × (ℕ → List ℝ))).map fun g => ⟨g.1, (List.range (gridNodes w.g.size)).map g.2⟩ := rfl
    have hlen : ∀ p ∈ List.range (gridNodes w.g.size), (([(["x", "y", "z"], fun l => List.ofFn ((savedPositions w.g).2 l)), (["vx", "vy", "vz"], fun l => List.ofFn (w.vel l)),
        (["mass"], fun l => [w.mass l])] :
        List (List String × (ℕ → List ℝ))).flatMap fun g => g.2 p).length =
        (([(["x", "y", "z"], fun l => List.ofFn ((savedPositions w.g).2 l)), (["vx", "vy", "vz"], fun l => List.ofFn (w.vel l)),
        (["mass"], fun l => [w.mass l])] :
        List (List String × (ℕ → List ℝ))).flatMap fun g => g.1).length := fun _ _ => rfl
    have hnd : (([(["x", "y", "z"], fun l => List.ofFn ((savedPositions w.g).2 l)), (["vx", "vy", "vz"], fun l => List.ofFn (w.vel l)),
        (["mass"], fun l => [w.mass l])] :
        List (List String × (ℕ → List ℝ))).flatMap fun g => g.1).Nodup := by
      simp
    rw [hgs]
    exact ⟨table_of hlen hnd, by rw [count_of, List.length_range, hcount],
      fun a => by fin_cases a <;> [exact column_nodes (column_at hlen hnd 0 rfl (fun p => rfl)) fun i hi => savedPositions_at w i hi 0; exact column_nodes (column_at hlen hnd 1 rfl (fun p => rfl)) fun i hi => savedPositions_at w i hi 1; exact column_nodes (column_at hlen hnd 2 rfl (fun p => rfl)) fun i hi => savedPositions_at w i hi 2],
      fun a => by fin_cases a <;> [exact column_nodes (column_at hlen hnd 3 rfl (fun p => rfl)) fun i hi => rfl; exact column_nodes (column_at hlen hnd 4 rfl (fun p => rfl)) fun i hi => rfl; exact column_nodes (column_at hlen hnd 5 rfl (fun p => rfl)) fun i hi => rfl],
      column_nodes (column_at hlen hnd 6 rfl (fun p => rfl)) fun i hi => rfl,
      fun h => by cases h⟩

/-- **C85** Every grid file of a 2D or 3D run can be read as a table with a row for every node: position,
velocity and mass, and with `use_mibf` the friction coefficient. -/
theorem C85_grid (hd : d = 2 ∨ d = 3) (useMibf : Bool) (w : World d) :
    ShowsGrid useMibf (writePly (gridGroups useMibf w)) w := by
  rcases hd with rfl | rfl
  · exact shows_grid2 useMibf w
  · exact shows_grid3 useMibf w

end tables


end Verif.Props
