import Verif.Lemmas.Remesh

/-!
# C13, C14, C15, C16: grid construction, re-meshing, node numbering
-/

set_option linter.unusedSectionVars false

namespace Verif
namespace Props
variable {K : Type*} [Field K] [LinearOrder K] [IsStrictOrderedRing K] [FloorRing K] {d : ℕ}

/-- Spec: coordinates in direction `a` of the particles, and of the reference point if given. -/
def coords (ref : Option (Fin d → K)) (xs : List (Fin d → K)) (a : Fin d) : Set K :=
  {y | (∃ x ∈ xs, x a = y) ∨ ∃ r, ref = some r ∧ r a = y}

private lemma coords_eq (ref : Option (Fin d → K)) (xs : List (Fin d → K)) (a : Fin d) :
    {y | y ∈ xs.map (fun x => x a) ∨ ref.map (fun r => r a) = some y} = coords ref xs a := by
  ext y; simp [coords]

private lemma remeshInit_axes {dx : K} {ref : Option (Fin d → K)} {xs : List (Fin d → K)}
    {r : (Fin d → AxisInit K) × Axes d K} (h : remeshInit dx ref xs = some r) (hne : xs ≠ []) :
    ∀ a, InitOK dx (ref.map fun r => r a) (xs.map fun x => x a) (r.1 a) ∧
      axisInitNodes dx (r.1 a) = some (r.2 a) := by
  simp only [remeshInit, Option.bind_eq_bind, Option.bind_eq_some_iff] at h
  obtain ⟨ai, h1, g, h2, h3⟩ := h
  injection h3 with h3
  subst h3
  intro a
  obtain ⟨ai', h4, h5⟩ := axisInit_spec dx (ref.map fun r => r a) (xs := xs.map fun x => x a) (by simpa)
  have := of_sequenceFin_some h1 a
  rw [h4] at this
  injection this with this
  subst this
  exact ⟨h5, of_sequenceFin_some h2 a⟩

/-- C13: for every non-empty cloud, grid spacing and reference point, the first grid exists, is
regular, has every particle at least one cell inside, and the particle-to-grid and grid-to-particle
loops only touch nodes of the grid (`none` would mean an index out of range). -/
theorem C13_first_step (deg : Deg) {dx : K} (hdx : 0 < dx) (ref : Option (Fin d → K))
    {ps : List (Particle d K)} (hne : ps ≠ []) :
    ∃ r, remeshInit dx ref (ps.map fun p => p.x) = some r ∧ GoodGrid dx r.2 ps ∧
      ∀ p ∈ ps, (stencilP2G deg (1 / dx) r.2 p.x).isSome ∧ (stencilG2P deg (1 / dx) r.2 p.x).isSome := by
  have hne' : ps.map (fun p => p.x) ≠ [] := by simpa
  choose ai h1 h2 using fun a : Fin d => axisInit_spec dx (ref.map fun r => r a)
    (xs := (ps.map fun p => p.x).map fun x => x a) (by simpa)
  choose g h3 h4 h5 h6 using fun a => axisInitNodes_spec hdx (h2 a)
  refine ⟨(ai, g), ?_, ⟨hdx, h4, ?_⟩, ?_⟩
  · simp only [remeshInit, sequenceFin_some h1, sequenceFin_some h3, Option.bind_eq_bind,
      Option.bind_some]
  · intro p hp a
    exact h6 a (p.x a) (by simp only [List.map_map, List.mem_map, Function.comp]; exact ⟨p, hp, rfl⟩)
  · intro p hp
    have : ∀ a, InsideAxis dx (g a) (p.x a) := fun a => h6 a (p.x a)
      (by simp only [List.map_map, List.mem_map, Function.comp]; exact ⟨p, hp, rfl⟩)
    obtain ⟨s, e1, e2, _⟩ := exists_stencil (deg := deg) hdx h4 this
    exact ⟨by rw [e1]; rfl, by rw [e2]; rfl⟩

/-- The remembered box is the bounding box of the initial cloud and the reference point. -/
theorem C13_box {dx : K} {ref : Option (Fin d → K)} {xs : List (Fin d → K)} (hne : xs ≠ [])
    {r : (Fin d → AxisInit K) × Axes d K} (h : remeshInit dx ref xs = some r) (a : Fin d) :
    IsLeast (coords ref xs a) (r.1 a).minInit ∧ IsGreatest (coords ref xs a) (r.1 a).maxInit := by
  have := (remeshInit_axes h hne a).1
  rw [← coords_eq]
  exact ⟨this.least, this.greatest⟩

/-- three particles, a reference point left of them -/
example : ((remeshInit (1/2 : ℚ) (some ![-1, 0]) [![0, 0], ![3/4, 1/4], ![1/3, 0]]).map
    fun r => (r.2 0).length) = some 9 := by decide +kernel

/-- C14 (full statement is false, see `C14_false`): in later steps the grid contains all stencils
provided that, in every direction, the outermost particle has not moved outwards, relative to the
initial box, by a whole number (at least one) of cells plus less than `1e-8*dx` cells.
Missing for the full claim: the particle clouds in that window. -/
theorem C14_later_steps_partial (deg : Deg) {dx : K} (hdx : 0 < dx) {ref : Option (Fin d → K)}
    {xs0 : List (Fin d → K)} (hne0 : xs0 ≠ []) {r : (Fin d → AxisInit K) × Axes d K}
    (hr : remeshInit dx ref xs0 = some r) {ps : List (Particle d K)} (hne : ps ≠ [])
    (hlo : ∀ a m, IsLeast {y | ∃ p ∈ ps, p.x a = y} m →
      (∀ m0, IsLeast (coords ref xs0 a) m0 → OffWindow dx ((m0 - m) / dx)))
    (hhi : ∀ a m, IsGreatest {y | ∃ p ∈ ps, p.x a = y} m →
      (∀ m0, IsGreatest (coords ref xs0 a) m0 → OffWindow dx ((m - m0) / dx))) :
    ∃ g, remeshCont dx r.1 (ps.map fun p => p.x) = some g ∧ GoodGrid dx g ps ∧
      ∀ p ∈ ps, (stencilP2G deg (1 / dx) g p.x).isSome ∧ (stencilG2P deg (1 / dx) g p.x).isSome := by
  have hset : ∀ a : Fin d, {y | y ∈ (ps.map fun p => p.x).map fun x => x a} =
      {y | ∃ p ∈ ps, p.x a = y} := fun a => by ext y; simp
  have hi := fun a => (remeshInit_axes hr hne0 a).1
  choose g h3 h4 h6 using fun a => axisContNodes_spec hdx (hi a)
    (xs := (ps.map fun p => p.x).map fun x => x a) (by simpa)
    (fun m hm => hlo a m (by rw [← hset]; exact hm) _ (C13_box hne0 hr a).1)
    (fun m hm => hhi a m (by rw [← hset]; exact hm) _ (C13_box hne0 hr a).2)
  have hin : ∀ p ∈ ps, ∀ a, InsideAxis dx (g a) (p.x a) := fun p hp a => h6 a (p.x a)
      (by simp only [List.map_map, List.mem_map, Function.comp]; exact ⟨p, hp, rfl⟩)
  refine ⟨g, by simp only [remeshCont, sequenceFin_some h3], ⟨hdx, h4, hin⟩, fun p hp => ?_⟩
  obtain ⟨s, e1, e2, _⟩ := exists_stencil (deg := deg) hdx h4 (hin p hp)
  exact ⟨by rw [e1]; rfl, by rw [e2]; rfl⟩

/-- a displacement of 1.3 cells is off the window, one of exactly one cell is not -/
example : OffWindow (1/2 : ℚ) (13/10) ∧ ¬ OffWindow (1/2 : ℚ) 1 := by
  constructor
  · right
    have : Int.fract (13/10 : ℚ) = 3/10 := by
      rw [Int.fract_eq_iff]; exact ⟨by norm_num, by norm_num, 1, by norm_num⟩
    rw [this]; norm_num
  · rintro (h | h)
    · exact absurd h (lt_irrefl _)
    · rw [Int.fract_one] at h; norm_num at h

/-- C14 is false for the code: two particles at `x = 0` and `x = 1`, `dx = 1/2`; the right one moves
to `3/2` (exactly one cell): the next particle-to-grid transfer reads past the end of the grid. -/
theorem C14_false : ∃ (r : (Fin 2 → AxisInit ℚ) × Axes 2 ℚ) (g : Axes 2 ℚ),
    remeshInit (1/2) none [![0, 0], ![1, 0]] = some r ∧
    remeshCont (1/2) r.1 [![0, 0], ![3/2, 0]] = some g ∧
    stencilP2G .two (1 / (1/2)) g ![3/2, 0] = none := by
  obtain ⟨r, hr⟩ : ∃ r, remeshInit (1/2 : ℚ) none [![0, 0], ![1, 0]] = some r :=
    Option.isSome_iff_exists.mp (by decide +kernel)
  have h2 : ((remeshInit (1/2 : ℚ) none [![0, 0], ![1, 0]]).bind fun r =>
      remeshCont (1/2) r.1 [![0, 0], ![3/2, 0]]).isSome = true := by decide +kernel
  rw [hr, Option.bind_some] at h2
  obtain ⟨g, hg⟩ := Option.isSome_iff_exists.mp h2
  refine ⟨r, g, hr, hg, ?_⟩
  have h3 : ((remeshInit (1/2 : ℚ) none [![0, 0], ![1, 0]]).bind fun r =>
      (remeshCont (1/2) r.1 [![0, 0], ![3/2, 0]]).map fun g =>
        (stencilP2G .two (1 / (1/2)) g ![3/2, 0]).isNone) = some true := by decide +kernel
  rw [hr, Option.bind_some, hg, Option.map_some, Option.some.injEq, Option.isNone_iff_eq_none] at h3
  exact h3

/-- C14, low side: the left particle moves from `0` to `-(1/2) - 1e-9`: the conversion of the
negative base index to `unsigned` in the grid-to-particle transfer is undefined. -/
theorem C14_false_low : ∃ (r : (Fin 2 → AxisInit ℚ) × Axes 2 ℚ) (g : Axes 2 ℚ),
    remeshInit (1/2) none [![0, 0], ![1, 0]] = some r ∧
    remeshCont (1/2) r.1 [![-(1/2) - 1/10^9, 0], ![1, 0]] = some g ∧
    stencilG2P .two (1 / (1/2)) g ![-(1/2) - 1/10^9, 0] = none := by
  obtain ⟨r, hr⟩ : ∃ r, remeshInit (1/2 : ℚ) none [![0, 0], ![1, 0]] = some r :=
    Option.isSome_iff_exists.mp (by decide +kernel)
  have h2 : ((remeshInit (1/2 : ℚ) none [![0, 0], ![1, 0]]).bind fun r =>
      remeshCont (1/2) r.1 [![-(1/2) - 1/10^9, 0], ![1, 0]]).isSome = true := by decide +kernel
  rw [hr, Option.bind_some] at h2
  obtain ⟨g, hg⟩ := Option.isSome_iff_exists.mp h2
  refine ⟨r, g, hr, hg, ?_⟩
  have h3 : ((remeshInit (1/2 : ℚ) none [![0, 0], ![1, 0]]).bind fun r =>
      (remeshCont (1/2) r.1 [![-(1/2) - 1/10^9, 0], ![1, 0]]).map fun g =>
        (stencilG2P .two (1 / (1/2)) g ![-(1/2) - 1/10^9, 0]).isNone) = some true := by decide +kernel
  rw [hr, Option.bind_some, hg, Option.map_some, Option.some.injEq, Option.isNone_iff_eq_none] at h3
  exact h3

/-- C14: exactly when is the access of the grid-to-particle loop in range, on any regular grid. -/
theorem C14_exact (deg : Deg) {dx : K} (hdx : 0 < dx) {g : Axes d K}
    (hu : ∀ a, UniformAxis dx (g a)) (x : Fin d → K) :
    (stencilG2P deg (1 / dx) g x).isSome ↔ ∀ a, InsideAxis dx (g a) (x a) :=
  stencilG2P_isSome_iff hdx hu

/-- C15: all grids of a run are parts of one lattice, regularly spaced (hence strictly increasing,
`C15_increasing`). -/
theorem C15_lattice {dx : K} (hdx : 0 < dx) {ref : Option (Fin d → K)}
    {xs0 : List (Fin d → K)} (hne0 : xs0 ≠ []) {r : (Fin d → AxisInit K) × Axes d K}
    (hr : remeshInit dx ref xs0 = some r) {xs : List (Fin d → K)} {g : Axes d K}
    (hg : remeshCont dx r.1 xs = some g) (a : Fin d) :
    ∃ first, (r.2 a).head? = some first ∧
      (∀ k (hk : k < (r.2 a).length), (r.2 a)[k] = first + k * dx) ∧
      ∃ m : ℤ, ∀ k (hk : k < (g a).length), (g a)[k] = first + (m + k) * dx := by
  obtain ⟨hi, hn⟩ := remeshInit_axes hr hne0 a
  obtain ⟨nodes, h1, ⟨x0, hu⟩, h3, h4⟩ := axisInitNodes_spec hdx hi
  rw [hn] at h1
  injection h1 with h1
  have hpos : 0 < nodes.length := by
    rcases nodes with _ | ⟨z, zs⟩
    · simp at h3
    · simp
  have hx0 : x0 = (r.1 a).lowInit := by
    rw [List.head?_eq_getElem?, List.getElem?_eq_getElem hpos] at h3
    have := Option.some.inj h3
    rw [UniformAxis.getElem hu hpos] at this
    simpa using this
  subst hx0
  rw [h1]
  refine ⟨_, h3, fun k hk => UniformAxis.getElem hu hk, ?_⟩
  have := of_sequenceFin_some hg a
  simp only [axisContNodes, Option.bind_eq_bind, Option.bind_eq_some_iff] at this
  obtain ⟨mx, _, mn, _, h5⟩ := this
  obtain ⟨m, hm⟩ := contLow_lattice dx (r.1 a) mn
  refine ⟨m, fun k hk => ?_⟩
  rw [arange_eq hdx] at h5
  injection h5 with h5
  have : (g a)[k] = contLow dx (r.1 a) mn + k * dx := by
    have e : (g a)[k]? = some (contLow dx (r.1 a) mn + k * dx) := by
      rw [← h5]
      have hk' : k < ⌈(contHigh dx (r.1 a) mx + dx - contLow dx (r.1 a) mn) / dx⌉₊ := by
        rw [← h5] at hk; simpa using hk
      simp [hk']
    rw [List.getElem?_eq_getElem hk] at e
    exact Option.some.inj e
  rw [this, hm]; ring

/-- C15: the nodes of a later grid are strictly increasing. -/
theorem C15_increasing {dx : K} (hdx : 0 < dx) {ref : Option (Fin d → K)}
    {xs0 : List (Fin d → K)} (hne0 : xs0 ≠ []) {r : (Fin d → AxisInit K) × Axes d K}
    (hr : remeshInit dx ref xs0 = some r) {xs : List (Fin d → K)} {g : Axes d K}
    (hg : remeshCont dx r.1 xs = some g) (a : Fin d) : (g a).Pairwise (· < ·) := by
  obtain ⟨first, _, _, m, h⟩ := C15_lattice hdx hne0 hr hg a
  rw [List.pairwise_iff_getElem]
  intro i j hi hj hij
  rw [h i hi, h j hj]
  have : (i : K) < j := by exact_mod_cast hij
  have := mul_lt_mul_of_pos_right this hdx
  linarith

/-- C15: in a later grid every particle keeps a distance of at least `dx - 1e-8*dx^2` from both ends
of the grid (for spacings up to 1e8). -/
theorem C15_border {dx : K} (hdx : 0 < dx) (hdx' : dx ≤ 10 ^ 8) {ref : Option (Fin d → K)}
    {xs0 : List (Fin d → K)} (hne0 : xs0 ≠ []) {r : (Fin d → AxisInit K) × Axes d K}
    (hr : remeshInit dx ref xs0 = some r) {xs : List (Fin d → K)} (hne : xs ≠ []) :
    ∃ g, remeshCont dx r.1 xs = some g ∧ ∀ a, ∃ first last, (g a).head? = some first ∧
      (g a).getLast? = some last ∧ ∀ x ∈ xs,
        first + (dx - 1 / 10 ^ 8 * dx ^ 2) ≤ x a ∧ x a ≤ last - (dx - 1 / 10 ^ 8 * dx ^ 2) := by
  have hi := fun a => (remeshInit_axes hr hne0 a).1
  have hex : ∀ a : Fin d, ∃ nodes, axisContNodes dx (r.1 a) (xs.map fun x => x a) = some nodes ∧
      ∃ first last, nodes.head? = some first ∧ nodes.getLast? = some last ∧ ∀ x ∈ xs,
        first + (dx - 1 / 10 ^ 8 * dx ^ 2) ≤ x a ∧ x a ≤ last - (dx - 1 / 10 ^ 8 * dx ^ 2) := by
    intro a
    obtain ⟨mx, hmx, hmem, hge⟩ := maxElem_spec (xs := xs.map fun x => x a) (by simpa)
    obtain ⟨mn, hmn, hmem', hle⟩ := minElem_spec (xs := xs.map fun x => x a) (by simpa)
    have h1 := contLow_le hdx (hi a) mn
    have h2 := le_contHigh hdx (hi a) mx
    have h3 : 1 / 10 ^ 8 * dx * dx ≤ dx := by
      have : 1 / 10 ^ 8 * dx ≤ 1 := by
        rw [one_div, inv_mul_le_iff₀ (by positivity)]; simpa using hdx'
      have := mul_le_mul_of_nonneg_right this hdx.le
      linarith
    have hlt : contLow dx (r.1 a) mn < contHigh dx (r.1 a) mx + dx := by have := hle mx hmem; linarith
    obtain ⟨nodes, hn⟩ : ∃ nodes, arange (contLow dx (r.1 a) mn) (contHigh dx (r.1 a) mx + dx) dx
      = some nodes := ⟨_, arange_eq hdx⟩
    obtain ⟨_, hhead, last, hlast, h4, _⟩ := arange_axis hdx hlt hn
    refine ⟨nodes, by simp only [axisContNodes, hmx, hmn, Option.bind_eq_bind, Option.bind_some, hn],
      _, last, hhead, hlast, fun x hx => ?_⟩
    have h5 := hle (x a) (List.mem_map.mpr ⟨x, hx, rfl⟩)
    have h6 := hge (x a) (List.mem_map.mpr ⟨x, hx, rfl⟩)
    have e : 1 / 10 ^ 8 * dx ^ 2 = 1 / 10 ^ 8 * dx * dx := by ring
    rw [e]
    constructor <;> linarith
  choose g h1 h2 using hex
  exact ⟨g, by simp only [remeshCont, sequenceFin_some h1], h2⟩

/-- a run where the second grid is shifted by two cells -/
example : ((remeshInit (1/2 : ℚ) none [![0, 0], ![1, 0]]).bind fun r =>
    (remeshCont (1/2) r.1 [![11/10, 0], ![13/10, 0]]).map fun g => ((r.2 0).head?, (g 0).head?)) =
    some (some (-1), some 0) := by decide +kernel

/-! ### C16 -/

/-- C16: the flat node index is a bijection between index tuples and `0 .. (number of nodes) - 1`. -/
theorem C16_bijection (n : Fin d → ℕ) :
    Set.BijOn (flatIndex n) {i | ∀ a, i a < n a} {l | l < ∏ a, n a} := by
  have hg : gridNodes n = ∏ a, n a := by rw [gridNodes, ← List.ofFn_eq_map, List.prod_ofFn]
  rw [← hg]
  refine ⟨fun i hi => flatIndex_lt hi, fun i hi j hj e => flatIndex_inj hi hj e, fun l hl => ?_⟩
  obtain ⟨i, hi, e⟩ := flatIndex_surj hl
  exact ⟨i, hi, e⟩

/-- C16: the formulas of the code in two and three dimensions. -/
theorem C16_formula (n2 i2 : Fin 2 → ℕ) (n3 i3 : Fin 3 → ℕ) :
    flatIndex n2 i2 = i2 0 * n2 1 + i2 1 ∧ flatIndex n3 i3 = (i3 0 * n3 1 + i3 1) * n3 2 + i3 2 :=
  ⟨flatIndex_two _ _, flatIndex_three _ _⟩

private lemma flat32_aux (n i : Fin d → ℕ) (L : List (Fin d)) : ∀ (acc : ℕ),
    L.foldl (fun acc a => acc * BitVec.ofNat 32 (n a) + BitVec.ofNat 32 (i a)) (BitVec.ofNat 32 acc) =
      BitVec.ofNat 32 (L.foldl (fun acc a => acc * n a + i a) acc) := by
  induction L with
  | nil => intro acc; rfl
  | cons a L ih =>
    intro acc
    rw [List.foldl_cons, List.foldl_cons, ← ih]
    congr 1
    rw [BitVec.ofNat_add, BitVec.ofNat_mul]

/-- C16: computed in 32-bit unsigned arithmetic the index is the exact one as long as the number of
nodes is at most `2^32`. -/
theorem C16_no_overflow {n i : Fin d → ℕ} (hi : ∀ a, i a < n a) (hn : ∏ a, n a ≤ 2 ^ 32) :
    (flatIndex32 n i).toNat = flatIndex n i := by
  have h : flatIndex32 n i = BitVec.ofNat 32 (flatIndex n i) := flat32_aux n i _ 0
  rw [h, BitVec.toNat_ofNat]
  exact Nat.mod_eq_of_lt (lt_of_lt_of_le ((C16_bijection n).mapsTo hi) hn)

/-- C16: beyond that size two different nodes can get the same index (65536 x 65537 grid). -/
theorem C16_overflow_collision :
    flatIndex32 ![65537, 65536] ![0, 0] = flatIndex32 ![65537, 65536] ![65536, 0] := by decide

private lemma savedPositions_aux (g : Axes d K) (L : List (Fin d → ℕ)) : ∀ (c : ℕ) (f : ℕ → Fin d → K),
    let st := L.foldl (fun (st : ℕ × (ℕ → Fin d → K)) i =>
      (st.1 + 1, Function.update st.2 st.1 (nodePosOf g i))) (c, f)
    st.1 = c + L.length ∧ (∀ r, r < c → st.2 r = f r) ∧
      ∀ k (hk : k < L.length), st.2 (c + k) = nodePosOf g L[k] := by
  induction L with
  | nil => intro c f; simp
  | cons i L ih =>
    intro c f
    obtain ⟨h1, h2, h3⟩ := ih (c + 1) (Function.update f c (nodePosOf g i))
    simp only [List.foldl_cons]
    refine ⟨by rw [h1, List.length_cons]; omega, fun r hr => ?_, fun k hk => ?_⟩
    · rw [h2 r (by omega), Function.update_of_ne (by omega)]
    · rcases k with _ | k
      · exact (h2 c (by omega)).trans (by simp)
      · have := h3 k (by simpa using hk)
        rw [show c + (k + 1) = c + 1 + k by omega, this]
        simp

/-- C16: row `flatIndex i` of a saved grid file holds the position of node `i` next to the velocity
and mass stored for node `i`; the file has exactly as many rows as nodes. -/
theorem C16_saved_rows (g : Axes d K) (v : ℕ → Fin d → K) (mass : ℕ → K) :
    (savedPositions g).1 = ∏ a, (g a).length ∧
    ∀ i, (∀ a, i a < (g a).length) →
      savedRow g v mass (flatIndex g.size i) =
        (fun a => (g a).getD (i a) 0, v (flatIndex g.size i), mass (flatIndex g.size i)) := by
  have hlen : (allNodes g.size).length = gridNodes g.size := by
    have := congrArg List.length (map_flatIndex_allNodes g.size)
    simpa using this
  obtain ⟨h1, _, h3⟩ := savedPositions_aux g (allNodes g.size) 0 (fun _ => 0)
  constructor
  · have : gridNodes g.size = ∏ a, (g a).length := by
      rw [gridNodes, ← List.ofFn_eq_map, List.prod_ofFn]; rfl
    rw [savedPositions, h1, hlen, this, Nat.zero_add]
  · intro i hi
    have hl := flatIndex_lt (n := g.size) hi
    have hk : flatIndex g.size i < (allNodes g.size).length := by rw [hlen]; exact hl
    have := h3 (flatIndex g.size i) hk
    rw [Nat.zero_add] at this
    have hnode : (allNodes g.size)[flatIndex g.size i] = i := by
      have hm := mem_allNodes.mp (List.getElem_mem hk)
      apply flatIndex_inj hm hi
      have e : ((allNodes g.size).map (flatIndex g.size))[flatIndex g.size i]? =
          some (flatIndex g.size i) := by
        rw [map_flatIndex_allNodes]; simp [hl]
      simpa [hk] using e
    simp only [savedRow, savedPositions, this, hnode]
    rfl

/-- a 3 x 2 grid: the row of node (2,1) is the last one -/
example : (savedRow (K := ℚ) ![[0, 1, 2], [5, 6]] (fun l => ![l, 0]) (fun l => l)
    (flatIndex (Axes.size ![[0, 1, 2], [5, 6]]) ![2, 1])).1 = ![2, 6] := by
  decide +kernel

end Props
end Verif
