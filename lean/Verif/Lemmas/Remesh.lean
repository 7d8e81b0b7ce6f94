import Verif.Lemmas.Arange
import Mathlib.Order.Bounds.Basic

set_option linter.unusedSectionVars false

/-! One-direction re-meshing lemmas. -/

namespace Verif
variable {K : Type*} [Field K] [LinearOrder K] [IsStrictOrderedRing K] [FloorRing K]

lemma withRef_spec (ref : Option K) {mn mx : K} (h : mn ≤ mx) :
    (withRef ref mn mx).1 ≤ mn ∧ mx ≤ (withRef ref mn mx).2 ∧
    (∀ r, ref = some r → (withRef ref mn mx).1 ≤ r ∧ r ≤ (withRef ref mn mx).2) ∧
    ((withRef ref mn mx).1 = mn ∨ ref = some (withRef ref mn mx).1) ∧
    ((withRef ref mn mx).2 = mx ∨ ref = some (withRef ref mn mx).2) := by
  cases ref with
  | none => simp [withRef]
  | some r =>
    simp only [withRef]
    split_ifs with h1 h2
    · exact ⟨h1.le, le_rfl, fun r' e => by injection e with e; subst e; exact ⟨le_rfl, by linarith⟩,
        Or.inr rfl, Or.inl rfl⟩
    · exact ⟨le_rfl, h2.le, fun r' e => by injection e with e; subst e; exact ⟨by linarith, le_rfl⟩,
        Or.inl rfl, Or.inr rfl⟩
    · exact ⟨le_rfl, le_rfl, fun r' e => by injection e with e; subst e; exact ⟨by linarith, by linarith⟩,
        Or.inl rfl, Or.inl rfl⟩

/-- What `remeshFixedInit` remembers for one direction. -/
structure InitOK (dx : K) (ref : Option K) (xs : List K) (ai : AxisInit K) : Prop where
  least : IsLeast {x | x ∈ xs ∨ ref = some x} ai.minInit
  greatest : IsGreatest {x | x ∈ xs ∨ ref = some x} ai.maxInit
  low : ai.lowInit = ai.minInit - 2 * dx
  high : ai.highInit = ai.maxInit + 2 * dx

lemma axisInit_spec (dx : K) (ref : Option K) {xs : List K} (h : xs ≠ []) :
    ∃ ai, axisInit dx 2 ref xs = some ai ∧ InitOK dx ref xs ai := by
  obtain ⟨mx, hmx, hmem, hge⟩ := maxElem_spec h
  obtain ⟨mn, hmn, hmem', hle⟩ := minElem_spec h
  obtain ⟨w1, w2, w3, w4, w5⟩ := withRef_spec ref (hle mx hmem)
  refine ⟨_, by simp only [axisInit, hmx, hmn, Option.bind_eq_bind, Option.bind_some]; rfl, ?_, ?_, ?_, ?_⟩
  · constructor
    · rcases w4 with e | e
      · left; simp only [e]; exact hmem'
      · right; exact e
    · rintro y (hy | hy)
      · exact le_trans w1 (hle y hy)
      · exact (w3 y hy).1
  · constructor
    · rcases w5 with e | e
      · left; simp only [e]; exact hmem
      · right; exact e
    · rintro y (hy | hy)
      · exact le_trans (hge y hy) w2
      · exact (w3 y hy).2
  · simp only; push_cast; ring
  · simp only; push_cast; ring

lemma InitOK.le {dx : K} {ref : Option K} {xs : List K} {ai : AxisInit K}
    (h : InitOK dx ref xs ai) : ai.minInit ≤ ai.maxInit :=
  h.least.2 h.greatest.1

/-- First step: uniform, and everything inside. -/
lemma axisInitNodes_spec {dx : K} (hdx : 0 < dx) {ref : Option K} {xs : List K} {ai : AxisInit K}
    (h : InitOK dx ref xs ai) :
    ∃ nodes, axisInitNodes dx ai = some nodes ∧ UniformAxis dx nodes ∧
      nodes.head? = some ai.lowInit ∧ ∀ x ∈ xs, InsideAxis dx nodes x := by
  have hle := h.le
  have hlt : ai.lowInit < ai.highInit + dx := by rw [h.low, h.high]; linarith
  obtain ⟨nodes, hn⟩ : ∃ nodes, axisInitNodes dx ai = some nodes := ⟨_, arange_eq hdx⟩
  obtain ⟨hu, hhead, last, hlast, h1, h2⟩ := arange_axis hdx hlt hn
  refine ⟨nodes, hn, hu, hhead, fun x hx => ⟨_, last, hhead, hlast, ?_, ?_⟩⟩
  · have := h.least.2 (Or.inl hx); rw [h.low]; linarith
  · have := h.greatest.2 (Or.inl hx); rw [h.high] at h1; linarith

lemma cellCount_le {dx diff : K} (hdx : 0 < dx) (h0 : 0 ≤ diff) :
    (cellCount dx diff : K) * dx ≤ diff := by
  have h1 : (cellCount dx diff : K) ≤ max 0 (diff / dx - 1 / 10 ^ 8 * dx) :=
    Nat.floor_le (le_max_left _ _)
  have h2 : max 0 (diff / dx - 1 / 10 ^ 8 * dx) ≤ diff / dx := by
    apply max_le (by positivity)
    have : 0 ≤ 1 / 10 ^ 8 * dx := by positivity
    linarith
  have := le_trans h1 h2
  rwa [le_div_iff₀ hdx] at this

lemma lt_cellCount {dx diff : K} (hdx : 0 < dx) :
    diff < (cellCount dx diff + 1 + 1 / 10 ^ 8 * dx) * dx := by
  have h1 : max 0 (diff / dx - 1 / 10 ^ 8 * dx) < (cellCount dx diff : K) + 1 := Nat.lt_floor_add_one _
  have h2 : diff / dx < (cellCount dx diff + 1 + 1 / 10 ^ 8 * dx) := by
    have := lt_of_le_of_lt (le_max_right _ _) h1
    linarith
  rwa [div_lt_iff₀ hdx] at h2

/-- The displacement `D` (in cells) is not in the critical window: less than one cell, or at least
`1e-8*dx` cells beyond a whole number of cells. -/
def OffWindow (dx D : K) : Prop := D < 1 ∨ 1 / 10 ^ 8 * dx ≤ Int.fract D

lemma lt_cellCount_of_offWindow {dx diff : K} (hdx : 0 < dx) (h : OffWindow dx (diff / dx)) :
    diff < (cellCount dx diff + 1) * dx := by
  rw [← div_lt_iff₀ hdx]
  rcases h with h | h
  · have : (0 : K) ≤ cellCount dx diff := by positivity
    linarith
  · rcases lt_or_ge (diff / dx) 1 with h' | h'
    · have : (0 : K) ≤ cellCount dx diff := by positivity
      linarith
    have hf : (1 : ℤ) ≤ ⌊diff / dx⌋ := Int.le_floor.mpr (by simpa using h')
    have key : ⌊diff / dx⌋.toNat ≤ cellCount dx diff := by
      apply Nat.le_floor
      apply le_max_of_le_right
      have e : ((⌊diff / dx⌋.toNat : ℕ) : K) = ((⌊diff / dx⌋ : ℤ) : K) := by
        have := Int.toNat_of_nonneg (by omega : 0 ≤ ⌊diff / dx⌋)
        have h' : (((⌊diff / dx⌋.toNat : ℕ) : ℤ) : K) = ((⌊diff / dx⌋ : ℤ) : K) := by rw [this]
        exact_mod_cast h'
      rw [e]
      have := Int.self_sub_floor (diff / dx)
      linarith
    have h3 := Int.lt_floor_add_one (diff / dx)
    have e : ((⌊diff / dx⌋ : ℤ) : K) ≤ (cellCount dx diff : K) := by
      have h' : (⌊diff / dx⌋ : ℤ) ≤ (cellCount dx diff : ℤ) := by omega
      exact_mod_cast h'
    linarith

section cont
variable {dx : K} (hdx : 0 < dx) {ref : Option K} {xs0 : List K} {ai : AxisInit K}
  (h : InitOK dx ref xs0 ai)
include hdx h

lemma contLow_le (mn : K) : contLow dx ai mn ≤ mn - dx + 1 / 10 ^ 8 * dx * dx := by
  unfold contLow
  rw [h.low]
  have : 0 ≤ 1 / 10 ^ 8 * dx * dx := by positivity
  split_ifs with h1
  · have := cellCount_le hdx (by linarith : 0 ≤ mn - ai.minInit); linarith
  · have := lt_cellCount hdx (diff := ai.minInit - mn)
    linarith

lemma le_contHigh (mx : K) : mx + dx - 1 / 10 ^ 8 * dx * dx ≤ contHigh dx ai mx := by
  unfold contHigh
  rw [h.high]
  have : 0 ≤ 1 / 10 ^ 8 * dx * dx := by positivity
  split_ifs with h1
  · have := cellCount_le hdx (by linarith : 0 ≤ ai.maxInit - mx); linarith
  · have := lt_cellCount hdx (diff := mx - ai.maxInit)
    linarith

lemma contLow_le_off {mn : K} (hw : OffWindow dx ((ai.minInit - mn) / dx)) :
    contLow dx ai mn ≤ mn - dx := by
  unfold contLow
  rw [h.low]
  split_ifs with h1
  · have := cellCount_le hdx (by linarith : 0 ≤ mn - ai.minInit); linarith
  · have := lt_cellCount_of_offWindow hdx hw
    linarith

lemma lt_contHigh_off {mx : K} (hw : OffWindow dx ((mx - ai.maxInit) / dx)) :
    mx + dx < contHigh dx ai mx := by
  unfold contHigh
  rw [h.high]
  split_ifs with h1
  · have := cellCount_le hdx (by linarith : 0 ≤ ai.maxInit - mx); linarith
  · have := lt_cellCount_of_offWindow hdx hw
    linarith

/-- Later steps, outside the critical window. -/
lemma axisContNodes_spec {xs : List K} (hne : xs ≠ [])
    (hlo : ∀ m, IsLeast {x | x ∈ xs} m → OffWindow dx ((ai.minInit - m) / dx))
    (hhi : ∀ m, IsGreatest {x | x ∈ xs} m → OffWindow dx ((m - ai.maxInit) / dx)) :
    ∃ nodes, axisContNodes dx ai xs = some nodes ∧ UniformAxis dx nodes ∧
      ∀ x ∈ xs, InsideAxis dx nodes x := by
  obtain ⟨mx, hmx, hmem, hge⟩ := maxElem_spec hne
  obtain ⟨mn, hmn, hmem', hle⟩ := minElem_spec hne
  have h1 := contLow_le_off hdx h (hlo mn ⟨hmem', fun y hy => hle y hy⟩)
  have h2 := lt_contHigh_off hdx h (hhi mx ⟨hmem, fun y hy => hge y hy⟩)
  have hlt : contLow dx ai mn < contHigh dx ai mx + dx := by have := hle mx hmem; linarith
  obtain ⟨nodes, hn⟩ : ∃ nodes, arange (contLow dx ai mn) (contHigh dx ai mx + dx) dx = some nodes :=
    ⟨_, arange_eq hdx⟩
  obtain ⟨hu, hhead, last, hlast, h3, h4⟩ := arange_axis hdx hlt hn
  refine ⟨nodes, by simp only [axisContNodes, hmx, hmn, Option.bind_eq_bind, Option.bind_some, hn],
    hu, fun x hx => ⟨_, last, hhead, hlast, ?_, ?_⟩⟩
  · have := hle x hx; linarith
  · have := hge x hx; linarith

end cont

/-- The offset of the low end of any later grid from the low end of the first one. -/
lemma contLow_lattice (dx : K) (ai : AxisInit K) (mn : K) :
    ∃ k : ℤ, contLow dx ai mn = ai.lowInit + k * dx := by
  unfold contLow
  split_ifs
  · exact ⟨cellCount dx (mn - ai.minInit), by push_cast; rfl⟩
  · exact ⟨-cellCount dx (ai.minInit - mn), by push_cast; ring⟩

/-! ### exactness -/

lemma InsideAxis_of_base {dx : K} (hdx : 0 < dx) {nodes : List K} (hu : UniformAxis dx nodes) {x : K}
    {b : ℤ} (hb : baseInt (1 / dx) nodes x = some b) (h0 : 0 ≤ b) (hlen : b.toNat + 3 < nodes.length) :
    InsideAxis dx nodes x := by
  obtain ⟨x0, hn⟩ := hu
  simp only [baseInt, Option.map_eq_some_iff] at hb
  obtain ⟨first, hf, hb⟩ := hb
  have hlen' : 0 < nodes.length := by omega
  have hfirst : first = x0 := by
    rw [List.head?_eq_getElem?, List.getElem?_eq_getElem hlen'] at hf
    have := Option.some.inj hf
    rw [UniformAxis.getElem hn hlen'] at this
    simpa using this.symm
  refine ⟨first, x0 + ((nodes.length - 1 : ℕ) : K) * dx, hf, ?_, ?_, ?_⟩
  · rw [List.getLast?_eq_getElem?, List.getElem?_eq_getElem (by omega),
      UniformAxis.getElem hn (by omega)]
  · have : (1 : ℤ) ≤ ⌊(x - first) * (1 / dx)⌋ := by omega
    have := Int.le_floor.mp this
    rw [mul_one_div, le_div_iff₀ hdx] at this
    push_cast at this
    linarith
  · have h1 : ⌊(x - first) * (1 / dx)⌋ + 1 ≤ (nodes.length : ℤ) - 2 := by omega
    have h2 := Int.lt_floor_add_one ((x - first) * (1 / dx))
    have h3 : ((⌊(x - first) * (1 / dx)⌋ + 1 : ℤ) : K) ≤ (((nodes.length : ℤ) - 2 : ℤ) : K) := by
      exact_mod_cast h1
    push_cast at h3
    have h4 : (x - first) * (1 / dx) < (nodes.length : K) - 2 := lt_of_lt_of_le h2 h3
    rw [mul_one_div, div_lt_iff₀ hdx] at h4
    have e : ((nodes.length - 1 : ℕ) : K) = (nodes.length : K) - 1 := by
      rw [Nat.cast_sub hlen']; simp
    rw [e, ← hfirst]; linarith

lemma stencilG2P_isSome_iff {d : ℕ} {deg : Deg} {dx : K} (hdx : 0 < dx) {g : Axes d K}
    (hu : ∀ a, UniformAxis dx (g a)) {x : Fin d → K} :
    (stencilG2P deg (1 / dx) g x).isSome ↔ ∀ a, InsideAxis dx (g a) (x a) := by
  constructor
  · intro h a
    obtain ⟨s, hs⟩ := Option.isSome_iff_exists.mp h
    simp only [stencilG2P, Option.bind_eq_some_iff] at hs
    obtain ⟨b, hb, hs⟩ := hs
    have hba := of_sequenceFin_some hb a
    simp only [baseG2P, Option.bind_eq_some_iff] at hba
    obtain ⟨bi, hbi, hba⟩ := hba
    split_ifs at hba with hneg
    injection hba with hba
    simp only [mkStencil] at hs
    split_ifs at hs with hlen
    exact InsideAxis_of_base hdx (hu a) hbi (by omega) (by rw [hba]; exact hlen a)
  · intro h
    obtain ⟨s, _, hs, _⟩ := exists_stencil (deg := deg) hdx hu h
    rw [hs]; rfl

end Verif
