import Verif.Lemmas.RoundGrid

/-!
# C99: grids and stencils under rounding
-/

set_option linter.unusedSectionVars false
set_option linter.unusedVariables false
set_option linter.unusedSimpArgs false

namespace Verif.Props
open Verif
variable {u : ℝ} {fl : ℝ → ℝ} {dx B : ℝ}

/-- Spec: for a particle at `x` the computed base index is not negative, the four nodes exist, all other nodes of the grid
are at least `2 - e` cells away from the particle, the four weights sum to one up to `4 e`, and the particle sees the four
nodes at the distances `1 + f`, `f`, `f - 1`, `f - 2` in cells, for some `f` between 0 and 1, up to `e`. -/
def StencilFl (fl : ℝ → ℝ) (dx e : ℝ) (nodes : List ℝ) (x : ℝ) : Prop :=
  ∃ b : ℕ, baseFl fl dx nodes x = some (b : ℤ) ∧ b + 3 < nodes.length ∧
    (∀ i (hi : i < nodes.length), i < b ∨ b + 3 < i → (2 - e) * dx ≤ |x - nodes[i]|) ∧
    (∀ deg : Deg, |∑ k : Fin 4, N deg (argFl fl dx x (nodes.getD (b + k) 0)) - 1| ≤ 4 * e) ∧
    ∃ f : ℝ, 0 ≤ f ∧ f ≤ 1 ∧ ∀ k : Fin 4, |argFl fl dx x (nodes.getD (b + k) 0) - (1 + f - (k : ℕ))| ≤ e

lemma sum_N_closed {f : ℝ} (h0 : 0 ≤ f) (h1 : f ≤ 1) (deg : Deg) :
    ∑ i, N deg (stencilArg f i) = 1 := by
  rcases eq_or_lt_of_le h1 with h | h
  · have h2 := sum_N (f := (0 : ℝ)) le_rfl one_pos deg
    have hN : N deg (2 : ℝ) = 0 ∧ N deg (-2 : ℝ) = 0 := by
      cases deg with
      | one => exact ⟨N1_out (by norm_num), N1_out (by norm_num)⟩
      | two => exact ⟨N2_out (by norm_num), N2_out (by norm_num)⟩
      | three => exact ⟨N3_out (by norm_num), N3_out (by norm_num)⟩
    rw [sum4] at h2 ⊢
    rw [h]
    simp only [stencilArg] at h2 ⊢
    norm_num at h2 ⊢
    rw [hN.2] at h2
    rw [hN.1]
    linarith
  · exact sum_N h0 h deg

/-- The grid from `low` to `stop`. -/
lemma gridFl_ok (h : Cells u fl dx B) {low stop : ℝ} (hlow : |low| ≤ 2 * B) (hstop : stop - low ≤ 3 * B) :
    ∃ nodes, (∀ fuel : ℕ, 4 * (B / dx) ≤ fuel → arangeLoopFl fl fuel low stop dx = some nodes) ∧
      ∀ x, low + (1 + 40 * (u * (B / dx) ^ 2)) * dx ≤ x → x + (2 + 40 * (u * (B / dx) ^ 2)) * dx < stop →
        StencilFl fl dx (40 * (u * (B / dx) ^ 2)) nodes x := by
  have hu := h.rnd.nonneg
  have hd := h.hdx
  have hk := h.cells
  have hs := h.small
  have huk := h.uk
  have hu1 := h.u1
  set κ := B / dx with hκ
  have hB : B = κ * dx := by rw [hκ, div_mul_cancel₀ _ hd.ne']
  set ε := u * κ ^ 2 with hε
  have hε0 : 0 ≤ ε := by positivity
  have huκ0 : 0 ≤ u * κ := by positivity
  have herr : ∀ i : ℕ, (i : ℝ) ≤ 4 * κ → |nodeFl fl dx low i - (low + i * dx)| ≤ 32 * ε * dx :=
    fun i hi => h.node_cells hlow i hi
  have hlen : (stop - low) / dx ≤ 3 * κ := by
    rw [div_le_iff₀ hd]; linarith
  -- the end of the loop
  have hex : ∃ n : ℕ, (n : ℝ) ≤ 4 * κ ∧ ¬ nodeFl fl dx low n < stop := by
    refine ⟨⌈max 0 ((stop - low) / dx) + 1⌉₊, ?_, ?_⟩
    · have := Nat.ceil_lt_add_one (a := max 0 ((stop - low) / dx) + 1) (by positivity)
      have h2 : max 0 ((stop - low) / dx) ≤ 3 * κ := max_le (by linarith) hlen
      linarith
    · have hn4 : (⌈max 0 ((stop - low) / dx) + 1⌉₊ : ℝ) ≤ 4 * κ := by
        have := Nat.ceil_lt_add_one (a := max 0 ((stop - low) / dx) + 1) (by positivity)
        have h2 : max 0 ((stop - low) / dx) ≤ 3 * κ := max_le (by linarith) hlen
        linarith
      have h1 := (abs_le.mp (herr _ hn4)).1
      have h2 : (stop - low) / dx + 1 ≤ (⌈max 0 ((stop - low) / dx) + 1⌉₊ : ℝ) :=
        le_trans (by linarith [le_max_right 0 ((stop - low) / dx)]) (Nat.le_ceil _)
      have h3 : (stop - low) + dx ≤ (⌈max 0 ((stop - low) / dx) + 1⌉₊ : ℝ) * dx := by
        have := mul_le_mul_of_nonneg_right h2 hd.le
        rwa [add_mul, div_mul_cancel₀ _ hd.ne', one_mul] at this
      rw [not_lt]
      nlinarith
  have hex' : ∃ n : ℕ, ¬ nodeFl fl dx low n < stop := ⟨hex.choose, hex.choose_spec.2⟩
  classical
  set n := Nat.find hex' with hn
  have hn4 : (n : ℝ) ≤ 4 * κ := by
    have : n ≤ hex.choose := Nat.find_min' hex' hex.choose_spec.2
    have h2 : (n : ℝ) ≤ hex.choose := by exact_mod_cast this
    exact h2.trans hex.choose_spec.1
  have hlt : ∀ i < n, nodeFl fl dx low i < stop := fun i hi => not_not.mp (Nat.find_min hex' hi)
  refine ⟨(List.range n).map (nodeFl fl dx low), fun fuel hfuel => ?_, fun x hx1 hx2 => ?_⟩
  · refine arangeLoopFl_eq dx stop n low fuel ?_ hlt (Nat.find_spec hex')
    have : (n : ℝ) ≤ fuel := hn4.trans hfuel
    exact_mod_cast this
  · have hlen' : ((List.range n).map (nodeFl fl dx low)).length = n := by simp
    -- the cell of the particle
    set ρ := (x - low) / dx with hρ
    have hxρ : x = low + ρ * dx := by rw [hρ, div_mul_cancel₀ _ hd.ne']; ring
    have hρ1 : 1 + 40 * ε ≤ ρ := by
      rw [hρ, le_div_iff₀ hd]; linarith
    have hρ2 : ρ + (2 + 40 * ε) < (stop - low) / dx := by
      rw [lt_div_iff₀ hd, add_mul]; linarith
    have hρ3 : ρ ≤ 3 * κ := by linarith
    have hc := h.arg_err x low
    rw [← hρ, abs_of_nonneg (by linarith : (0 : ℝ) ≤ ρ)] at hc
    set c := argFl fl dx x low with hcdef
    have hcε : |c - ρ| ≤ 12 / 10 * ε := by
      refine hc.trans ?_
      have : u * ρ ≤ u * (3 * κ) := mul_le_mul_of_nonneg_left hρ3 hu
      nlinarith
    obtain ⟨hc1, hc2⟩ := abs_le.mp hcε
    have hq1 := Int.floor_le c
    have hq2 := Int.lt_floor_add_one c
    have hqpos : 1 ≤ ⌊c⌋ := Int.le_floor.mpr (by push_cast; linarith)
    obtain ⟨b, hb⟩ := Int.eq_ofNat_of_zero_le (sub_nonneg.mpr hqpos)
    have hbr : (⌊c⌋ : ℝ) = b + 1 := by
      have : ⌊c⌋ = (b : ℤ) + 1 := by omega
      rw [this]; push_cast; ring
    rw [hbr] at hq1 hq2
    have hb3 : b + 3 < n := by
      rw [hn, Nat.lt_find_iff]
      intro m hm
      rw [not_not]
      have hmr : (m : ℝ) ≤ b + 3 := by exact_mod_cast hm
      have hm4 : (m : ℝ) ≤ 4 * κ := by linarith
      have h1 := (abs_le.mp (herr m hm4)).2
      have h2 : (m : ℝ) * dx ≤ (ρ + 12 / 10 * ε + 2) * dx := mul_le_mul_of_nonneg_right (by linarith) hd.le
      nlinarith
    have hnode : ∀ i (hi : i < ((List.range n).map (nodeFl fl dx low)).length),
        ((List.range n).map (nodeFl fl dx low))[i] = nodeFl fl dx low i := by
      intro i hi; simp
    have hi4 : ∀ i < n, (i : ℝ) ≤ 4 * κ := fun i hi => by
      have : (i : ℝ) ≤ n := by exact_mod_cast hi.le
      linarith
    refine ⟨b, ?_, by rw [hlen']; exact hb3, ?_, ?_⟩
    · have hhead : ((List.range n).map (nodeFl fl dx low)).head? = some low := by
        rw [List.head?_map, List.head?_range, if_neg (by omega)]; rfl
      rw [baseFl, hhead, Option.map_some]
      show some (⌊c⌋ - 1) = _
      rw [hb]
    · intro i hi hout
      rw [hnode i hi]
      rw [hlen'] at hi
      obtain ⟨h1, h2⟩ := abs_le.mp (herr i (hi4 i hi))
      rcases hout with ho | ho
      · have hir : (i : ℝ) ≤ b - 1 := by
          have : (i : ℝ) + 1 ≤ b := by exact_mod_cast ho
          linarith
        have h3 : (i : ℝ) * dx ≤ (ρ + 12 / 10 * ε - 2) * dx := mul_le_mul_of_nonneg_right (by linarith) hd.le
        refine le_trans ?_ (le_abs_self _)
        rw [hxρ]; nlinarith
      · have hir : (b : ℝ) + 4 ≤ i := by
          have : b + 4 ≤ i := by omega
          exact_mod_cast this
        have h3 : (ρ - 12 / 10 * ε + 2) * dx ≤ (i : ℝ) * dx := mul_le_mul_of_nonneg_right (by linarith) hd.le
        refine le_trans ?_ (neg_le_abs _)
        rw [hxρ]; nlinarith
    · -- the offset in the cell, moved into the unit interval
      obtain ⟨f, hf0, hf1, hfs⟩ : ∃ f : ℝ, 0 ≤ f ∧ f ≤ 1 ∧ |ρ - (b + 1) - f| ≤ 12 / 10 * ε := by
        refine ⟨min 1 (max 0 (ρ - (b + 1))), le_min zero_le_one (le_max_left _ _), min_le_left _ _, ?_⟩
        rcases le_total (ρ - (b + 1)) 0 with h3 | h3
        · rw [max_eq_left h3, min_eq_right zero_le_one, abs_le]; constructor <;> linarith
        · rw [max_eq_right h3]
          rcases le_total (ρ - (b + 1)) 1 with h4 | h4
          · rw [min_eq_right h4, sub_self, abs_zero]; linarith
          · rw [min_eq_left h4, abs_le]; constructor <;> linarith
      obtain ⟨hfs1, hfs2⟩ := abs_le.mp hfs
      have hterm : ∀ k : Fin 4, |argFl fl dx x (((List.range n).map (nodeFl fl dx low)).getD (b + k) 0) -
          stencilArg f k| ≤ 40 * ε := by
        intro k
        have hkn : b + (k : ℕ) < n := by have := k.isLt; omega
        have hg : ((List.range n).map (nodeFl fl dx low)).getD (b + k) 0 = nodeFl fl dx low (b + k) := by
          rw [List.getD_eq_getElem?_getD, List.getElem?_eq_getElem (by rw [hlen']; exact hkn), Option.getD_some]
          exact hnode _ _
        rw [hg]
        have h1 := herr (b + k) (hi4 _ hkn)
        have h2 := h.arg_err x (nodeFl fl dx low (b + k))
        set v := nodeFl fl dx low (b + (k : ℕ)) with hv
        set A := (x - v) / dx with hA
        have hk3 : ((k : ℕ) : ℝ) ≤ 3 := by
          have : (k : ℕ) ≤ 3 := by have := k.isLt; omega
          exact_mod_cast this
        have hk0 : (0 : ℝ) ≤ ((k : ℕ) : ℝ) := Nat.cast_nonneg _
        have hAerr : |A - (ρ - (b + k))| ≤ 32 * ε := by
          have e : A - (ρ - (b + k)) = -(v - (low + ((b + (k : ℕ) : ℕ) : ℝ) * dx)) / dx := by
            rw [hA, hxρ]; push_cast; field_simp; ring
          rw [e, abs_div, abs_neg, abs_of_pos hd, div_le_iff₀ hd]
          exact h1
        obtain ⟨hA1, hA2⟩ := abs_le.mp hAerr
        have hAabs : |A| ≤ 3 := by rw [abs_le]; constructor <;> linarith
        have h3 : 4 * u * |A| ≤ 12 / 100 * ε := by
          have := mul_le_mul_of_nonneg_left hAabs (by positivity : 0 ≤ 4 * u)
          linarith
        obtain ⟨h4, h5⟩ := abs_le.mp (h2.trans h3)
        rw [stencilArg, abs_le]
        constructor <;> linarith
      refine ⟨fun deg => ?_, f, hf0, hf1, hterm⟩
      rw [← sum_N_closed hf0 hf1 deg, ← Finset.sum_sub_distrib]
      refine (Finset.abs_sum_le_sum_abs _ _).trans ?_
      calc _ ≤ ∑ k : Fin 4, 40 * ε := Finset.sum_le_sum fun k _ => (N_lipschitz deg _ _).trans (hterm k)
        _ = 4 * (40 * ε) := by simp

/-! ### The first grid -/

/-- What `remeshFixedInit` remembers, with rounding. -/
structure InitFl (u : ℝ) (dx B : ℝ) (ref : Option ℝ) (xs : List ℝ) (ai : AxisInit ℝ) : Prop where
  least : IsLeast {x | x ∈ xs ∨ ref = some x} ai.minInit
  greatest : IsGreatest {x | x ∈ xs ∨ ref = some x} ai.maxInit
  low : |ai.lowInit - (ai.minInit - 2 * dx)| ≤ 2 * (u * B)
  high : |ai.highInit - (ai.maxInit + 2 * dx)| ≤ 2 * (u * B)

lemma axisInitFl_spec (h : Cells u fl dx B) (ref : Option ℝ) {xs : List ℝ} (hne : xs ≠ [])
    (hB : ∀ y, y ∈ xs ∨ ref = some y → |y| ≤ B) :
    ∃ ai, axisInitFl fl dx 2 ref xs = some ai ∧ InitFl u dx B ref xs ai := by
  obtain ⟨a0, h1, h2⟩ := axisInit_spec dx ref hne
  have hd := h.hdx
  have hu := h.rnd.nonneg
  have hus := h.rnd.small
  have hbig := h.big
  obtain ⟨mx, hmx, hmem, hge⟩ := maxElem_spec hne
  obtain ⟨mn, hmn, hmem', hle⟩ := minElem_spec hne
  simp only [axisInit, hmx, hmn, Option.bind_eq_bind, Option.bind_some, Option.some.injEq] at h1
  have e1 : a0.minInit = (withRef ref mn mx).1 := by rw [← h1]
  have e2 : a0.maxInit = (withRef ref mn mx).2 := by rw [← h1]
  have hS : ∀ m, |m| ≤ B → |fl (m - fl (dx * (2 : ℕ))) - (m - 2 * dx)| ≤ 2 * (u * B) ∧
      |fl (m + fl (dx * (2 : ℕ))) - (m + 2 * dx)| ≤ 2 * (u * B) := by
    intro m hm
    have hr := h.rnd.err (dx * (2 : ℕ))
    push_cast at hr ⊢
    rw [abs_of_pos (by linarith : 0 < dx * 2)] at hr
    set s := fl (dx * 2)
    obtain ⟨hr1, hr2⟩ := abs_le.mp hr
    have hud : u * dx ≤ u * B / 10 := by
      have := mul_le_mul_of_nonneg_left hbig hu; linarith
    have hud0 : 0 ≤ u * dx := by positivity
    have hss : s ≤ 201 / 100 * dx := by nlinarith
    have hs0 : 0 ≤ s := by nlinarith
    obtain ⟨hm1, hm2⟩ := abs_le.mp hm
    constructor
    · have hx := h.rnd.err (m - s)
      have hab : |m - s| ≤ 14 / 10 * B := by rw [abs_le]; constructor <;> linarith
      have := mul_le_mul_of_nonneg_left hab hu
      obtain ⟨hx1, hx2⟩ := abs_le.mp (hx.trans this)
      rw [abs_le]; constructor <;> linarith
    · have hx := h.rnd.err (m + s)
      have hab : |m + s| ≤ 14 / 10 * B := by rw [abs_le]; constructor <;> linarith
      have := mul_le_mul_of_nonneg_left hab hu
      obtain ⟨hx1, hx2⟩ := abs_le.mp (hx.trans this)
      rw [abs_le]; constructor <;> linarith
  refine ⟨_, by simp only [axisInitFl, hmx, hmn, Option.bind_eq_bind, Option.bind_some]; rfl, ?_, ?_, ?_, ?_⟩
  · rw [← e1]; exact h2.least
  · rw [← e2]; exact h2.greatest
  · exact (hS _ (by rw [← e1]; exact hB _ h2.least.1)).1
  · exact (hS _ (by rw [← e2]; exact hB _ h2.greatest.1)).2

/-- **C99** First step, one direction, with rounding: for every cloud and reference point with coordinates up to `B`, the
construction of the grid ends, and for every particle the four nodes visited in the transfers exist. All other nodes are
two cells away, and the four weights sum to one, up to rounding. `e = 40 u (B/dx)^2` where `u` is the rounding error. -/
theorem C99_first_step (hr : Rounding u fl) (hdx : 0 < dx) (hbig : 10 * dx ≤ B) (hsmall : 1000 * (u * (B / dx) ^ 2) ≤ 1)
    (ref : Option ℝ) {xs : List ℝ} (hne : xs ≠ []) (hB : ∀ y, y ∈ xs ∨ ref = some y → |y| ≤ B) :
    ∃ ai nodes, axisInitFl fl dx 2 ref xs = some ai ∧
      (∀ fuel : ℕ, 4 * (B / dx) ≤ fuel → axisInitNodesFl fl fuel dx ai = some nodes) ∧
      ∀ x ∈ xs, StencilFl fl dx (40 * (u * (B / dx) ^ 2)) nodes x := by
  have h : Cells u fl dx B := ⟨hr, hdx, hbig, hsmall⟩
  obtain ⟨ai, hai, hI⟩ := axisInitFl_spec h ref hne hB
  have hu := hr.nonneg
  have huk := h.uk
  have huB := h.uB
  obtain ⟨l1, l2⟩ := abs_le.mp hI.low
  obtain ⟨h1, h2⟩ := abs_le.mp hI.high
  obtain ⟨m1, m2⟩ := abs_le.mp (hB _ hI.least.1)
  obtain ⟨n1, n2⟩ := abs_le.mp (hB _ hI.greatest.1)
  have hε0 : 0 ≤ u * (B / dx) ^ 2 := by positivity
  have hBp := h.pos
  have huBs : u * B ≤ 1 / 10000 * dx := by
    rw [huB]
    have : u * (B / dx) ≤ 1 / 10000 := by linarith
    exact mul_le_mul_of_nonneg_right this hdx.le
  have hstop := hr.err (ai.highInit + dx)
  have hab : |ai.highInit + dx| ≤ 2 * B := by rw [abs_le]; constructor <;> linarith
  have hx := mul_le_mul_of_nonneg_left hab hu
  obtain ⟨s1, s2⟩ := abs_le.mp (hstop.trans hx)
  obtain ⟨nodes, hn1, hn2⟩ := gridFl_ok h (low := ai.lowInit) (stop := fl (ai.highInit + dx))
    (by rw [abs_le]; constructor <;> linarith) (by linarith)
  refine ⟨ai, nodes, hai, hn1, fun x hx => hn2 x ?_ ?_⟩
  · have := hI.least.2 (Or.inl hx)
    nlinarith
  · have := hI.greatest.2 (Or.inl hx)
    nlinarith

/-! ### Later grids -/

/-- The number `D` of cells that a bounding particle has moved outwards is not in the critical window around whole numbers,
which with rounding is wider than without it (`OffWindow`): `e = u (B/dx)^2`. -/
def OffWindowFl (dx e D : ℝ) : Prop := D < 1 - 50 * e ∨ 1 / 10 ^ 8 * dx + e ≤ Int.fract D ∧ Int.fract D < 1 - 50 * e

lemma cellCountFl_bounds (h : Cells u fl dx B) (hd8 : dx ≤ 10 ^ 8) {a b : ℝ} (hab : b ≤ a) (habB : a - b ≤ 2 * B) :
    (cellCountFl fl dx a b : ℝ) ≤ (a - b) / dx + u * (B / dx) ^ 2 ∧
    (1 / 10 ^ 8 * dx + u * (B / dx) ^ 2 ≤ Int.fract ((a - b) / dx) →
      (⌊(a - b) / dx⌋ : ℝ) ≤ cellCountFl fl dx a b) := by
  have hd := h.hdx
  have hu := h.rnd.nonneg
  have hus := h.rnd.small
  have hk := h.cells
  have huk := h.uk
  have hu1 := h.u1
  set κ := B / dx with hκ
  set ε := u * κ ^ 2 with hε
  have hε0 : 0 ≤ ε := by positivity
  set t := (a - b) / dx with ht
  have ht0 : 0 ≤ t := div_nonneg (by linarith) hd.le
  have ht2 : t ≤ 2 * κ := by rw [ht, hκ, div_le_iff₀ hd, mul_assoc, div_mul_cancel₀ _ hd.ne']; exact habB
  set w := 1 / 10 ^ 8 * dx with hw
  have hw0 : 0 < w := by positivity
  have hw1 : w ≤ 1 := by rw [hw]; linarith
  -- the quotient
  have q1 := h.rnd.ge (x := a - b) (by linarith)
  have q2 := h.rnd.le (x := a - b) (by linarith)
  have q0 := h.rnd.nonneg' (x := a - b) (by linarith)
  set p := fl (a - b) with hp
  have hp1 : t - u * t ≤ p / dx := by
    rw [le_div_iff₀ hd, ht]; have : (a - b) / dx * dx = a - b := div_mul_cancel₀ _ hd.ne'
    nlinarith
  have hp2 : p / dx ≤ t + u * t := by
    rw [div_le_iff₀ hd, ht]; have : (a - b) / dx * dx = a - b := div_mul_cancel₀ _ hd.ne'
    nlinarith
  have hp0 : 0 ≤ p / dx := div_nonneg q0 hd.le
  have r1 := h.rnd.ge hp0
  have r2 := h.rnd.le hp0
  have hut0 : 0 ≤ u * t := by positivity
  have hut : u * t ≤ u * (2 * κ) := mul_le_mul_of_nonneg_left ht2 hu
  have huut : u * (u * t) ≤ u * t / 1000 := by nlinarith
  have hupd : u * (p / dx) ≤ u * (t + u * t) := mul_le_mul_of_nonneg_left hp2 hu
  have hupd0 : 0 ≤ u * (p / dx) := by positivity
  -- the offset
  have c0 : (0 : ℝ) < 1 / 10 ^ 8 := by norm_num
  have s1 := h.rnd.ge (x := 1 / 10 ^ 8) c0.le
  have s2 := h.rnd.le (x := 1 / 10 ^ 8) c0.le
  have s0 := h.rnd.nonneg' (x := 1 / 10 ^ 8) c0.le
  set g := fl (1 / 10 ^ 8) with hg
  have g1 : w - u * w ≤ g * dx := by
    have := mul_le_mul_of_nonneg_right s1 hd.le
    rw [hw]; linarith
  have g2 : g * dx ≤ w + u * w := by
    have := mul_le_mul_of_nonneg_right s2 hd.le
    rw [hw]; linarith
  have g0 : 0 ≤ g * dx := by positivity
  have v1 := h.rnd.ge g0
  have v2 := h.rnd.le g0
  have huw : u * w ≤ u := by nlinarith
  have huw0 : 0 ≤ u * w := by positivity
  have hugd : u * (g * dx) ≤ u * (w + u * w) := mul_le_mul_of_nonneg_left g2 hu
  have huuw : u * (u * w) ≤ u := by nlinarith
  have hugd0 : 0 ≤ u * (g * dx) := by positivity
  set P := fl (p / dx) with hP
  set G := fl (g * dx) with hG
  have hP1 : t - 21 / 10 * (u * t) ≤ P := by linarith
  have hP2 : P ≤ t + 21 / 10 * (u * t) := by linarith
  have hG1 : w - 3 * u ≤ G := by linarith
  have hG2 : G ≤ w + 3 * u := by linarith
  -- the difference
  have z := h.rnd.err (P - G)
  have huκ : u * κ ≤ 1 / 10000 := by have := h.small; linarith
  have hu0 : u ≤ u * κ / 10 := by
    have := mul_le_mul_of_nonneg_left hk hu; linarith
  have hPG : |P - G| ≤ 3 * κ := by rw [abs_le]; constructor <;> linarith
  have z' := z.trans (mul_le_mul_of_nonneg_left hPG hu)
  obtain ⟨z1, z2⟩ := abs_le.mp z'
  have hz1 : t - w - ε ≤ fl (P - G) := by linarith
  have hz2 : fl (P - G) ≤ t - w + ε := by linarith
  have hfl : cellCountFl fl dx a b = ⌊max 0 (fl (P - G))⌋₊ := rfl
  rw [hfl]
  constructor
  · refine (Nat.floor_le (le_max_left _ _)).trans (max_le (by positivity) (by linarith))
  · intro hfr
    have hfl0 : 0 ≤ ⌊t⌋ := Int.floor_nonneg.mpr ht0
    obtain ⟨m, hm⟩ := Int.eq_ofNat_of_zero_le hfl0
    have hmt : (m : ℝ) = t - Int.fract t := by
      have : (⌊t⌋ : ℝ) = m := by rw [hm]; simp
      rw [← this, Int.fract]; ring
    have : m ≤ ⌊max 0 (fl (P - G))⌋₊ := by
      refine Nat.le_floor (le_trans ?_ (le_max_right _ _))
      rw [hmt]; linarith
    rw [hm]
    exact_mod_cast this

/-- If the cloud is off the window, the grid is extended far enough. -/
lemma cellCountFl_ge (h : Cells u fl dx B) (hd8 : dx ≤ 10 ^ 8) {a b : ℝ} (hab : b ≤ a) (habB : a - b ≤ 2 * B)
    (hoff : OffWindowFl dx (u * (B / dx) ^ 2) ((a - b) / dx)) :
    (a - b) / dx < cellCountFl fl dx a b + 1 - 50 * (u * (B / dx) ^ 2) := by
  rcases hoff with ho | ⟨ho1, ho2⟩
  · have : (0 : ℝ) ≤ cellCountFl fl dx a b := Nat.cast_nonneg _
    linarith
  · have h1 := (cellCountFl_bounds h hd8 hab habB).2 ho1
    have h2 : (⌊(a - b) / dx⌋ : ℝ) = (a - b) / dx - Int.fract ((a - b) / dx) := by rw [Int.fract]; ring
    rw [h2] at h1
    linarith

/-- An end of the grid that has been moved by `n` cells. -/
lemma shift_err (h : Cells u fl dx B) {y z : ℝ} {n : ℕ} (hz : |y - z| ≤ 2 * (u * B)) (hzB : |z| ≤ 13 / 10 * B)
    (hn : n * dx ≤ 21 / 10 * B) :
    |fl (y + fl (n * dx)) - (z + n * dx)| ≤ 9 * (u * B) ∧ |fl (y - fl (n * dx)) - (z - n * dx)| ≤ 9 * (u * B) := by
  have hd := h.hdx
  have hu := h.rnd.nonneg
  have hus := h.rnd.small
  have hBp := h.pos
  have hn0 : 0 ≤ (n : ℝ) * dx := by positivity
  have huB0 : 0 ≤ u * B := by positivity
  have hr := h.rnd.err (n * dx)
  rw [abs_of_nonneg hn0] at hr
  have hr' := hr.trans (mul_le_mul_of_nonneg_left hn hu)
  obtain ⟨a1, a2⟩ := abs_le.mp hr'
  obtain ⟨b1, b2⟩ := abs_le.mp hz
  obtain ⟨c1, c2⟩ := abs_le.mp hzB
  set s := fl (n * dx)
  have huBs : u * B ≤ B / 1000 := by nlinarith
  constructor
  · have hx := h.rnd.err (y + s)
    have hab : |y + s| ≤ 4 * B := by rw [abs_le]; constructor <;> linarith
    obtain ⟨d1, d2⟩ := abs_le.mp (hx.trans (mul_le_mul_of_nonneg_left hab hu))
    rw [abs_le]; constructor <;> linarith
  · have hx := h.rnd.err (y - s)
    have hab : |y - s| ≤ 4 * B := by rw [abs_le]; constructor <;> linarith
    obtain ⟨d1, d2⟩ := abs_le.mp (hx.trans (mul_le_mul_of_nonneg_left hab hu))
    rw [abs_le]; constructor <;> linarith

/-- **C99** Later steps, one direction, with rounding: if the outermost particles are not in the window around whole
numbers of cells outside of the initial box, the construction of the grid ends, and for every particle the four nodes
visited in the transfers exist, all other nodes are two cells away, and the weights sum to one, up to rounding. With `u = 0`
the window is the one of C14; the claim without it is false (`C14_false`). -/
theorem C99_later_steps_partial (hr : Rounding u fl) (hdx : 0 < dx) (hd8 : dx ≤ 10 ^ 8) (hbig : 10 * dx ≤ B)
    (hsmall : 1000 * (u * (B / dx) ^ 2) ≤ 1) {ref : Option ℝ} {xs0 : List ℝ} (hne0 : xs0 ≠ [])
    (hB0 : ∀ y, y ∈ xs0 ∨ ref = some y → |y| ≤ B) {ai : AxisInit ℝ} (hai : axisInitFl fl dx 2 ref xs0 = some ai)
    {xs : List ℝ} (hne : xs ≠ []) (hB : ∀ y ∈ xs, |y| ≤ B)
    (hlo : ∀ m m0, IsLeast {y | y ∈ xs} m → IsLeast {y | y ∈ xs0 ∨ ref = some y} m0 →
      OffWindowFl dx (u * (B / dx) ^ 2) ((m0 - m) / dx))
    (hhi : ∀ m m0, IsGreatest {y | y ∈ xs} m → IsGreatest {y | y ∈ xs0 ∨ ref = some y} m0 →
      OffWindowFl dx (u * (B / dx) ^ 2) ((m - m0) / dx)) :
    ∃ nodes, (∀ fuel : ℕ, 4 * (B / dx) ≤ fuel → axisContNodesFl fl fuel dx ai xs = some nodes) ∧
      ∀ x ∈ xs, StencilFl fl dx (40 * (u * (B / dx) ^ 2)) nodes x := by
  have h : Cells u fl dx B := ⟨hr, hdx, hbig, hsmall⟩
  obtain ⟨ai', hai', hI⟩ := axisInitFl_spec h ref hne0 hB0
  rw [hai] at hai'
  injection hai' with hai'
  subst hai'
  obtain ⟨mx, hmx, hmem, hge⟩ := maxElem_spec hne
  obtain ⟨mn, hmn, hmem', hle⟩ := minElem_spec hne
  have hlo := hlo mn ai.minInit ⟨hmem', fun y hy => hle y hy⟩ hI.least
  have hhi := hhi mx ai.maxInit ⟨hmem, fun y hy => hge y hy⟩ hI.greatest
  have hu := hr.nonneg
  have huk := h.uk
  have huB := h.uB
  have hBp := h.pos
  set ε := u * (B / dx) ^ 2 with hε
  have hε0 : 0 ≤ ε := by positivity
  have huBs : u * B ≤ ε / 10 * dx := by
    rw [huB]
    exact mul_le_mul_of_nonneg_right (by linarith) hdx.le
  have huB0 : 0 ≤ u * B := by positivity
  have hεdx : ε * dx ≤ 1 / 1000 * dx := mul_le_mul_of_nonneg_right (by linarith) hdx.le
  have hεdx0 : 0 ≤ ε * dx := by positivity
  have hm0 := hB0 _ hI.least.1
  have hM0 := hB0 _ hI.greatest.1
  obtain ⟨m1, m2⟩ := abs_le.mp hm0
  obtain ⟨n1, n2⟩ := abs_le.mp hM0
  obtain ⟨p1, p2⟩ := abs_le.mp (hB mn hmem')
  obtain ⟨q1, q2⟩ := abs_le.mp (hB mx hmem)
  have hmnmx := hle mx hmem
  -- upper end
  have hhigh : mx + (2 + 41 * ε) * dx < contHighFl fl dx ai mx + dx ∧
      contHighFl fl dx ai mx ≤ max mx ai.maxInit + 21 / 10 * dx := by
    have hz : |ai.maxInit + 2 * dx| ≤ 13 / 10 * B := by rw [abs_le]; constructor <;> linarith
    rw [contHighFl]
    split_ifs with hc
    · have hcb := (cellCountFl_bounds (a := ai.maxInit) (b := mx) h hd8 hc.le (by linarith)).1
      have hcn := mul_le_mul_of_nonneg_right hcb hdx.le
      rw [add_mul, div_mul_cancel₀ _ hdx.ne'] at hcn
      obtain ⟨e1, e2⟩ := abs_le.mp (shift_err (n := cellCountFl fl dx ai.maxInit mx) h hI.high hz (by linarith)).2
      have hn0 : 0 ≤ (cellCountFl fl dx ai.maxInit mx : ℝ) * dx := by positivity
      rw [max_eq_right hc.le]
      constructor <;> linarith
    · rw [not_lt] at hc
      have hcb := (cellCountFl_bounds (a := mx) (b := ai.maxInit) h hd8 hc (by linarith)).1
      have hcn := mul_le_mul_of_nonneg_right hcb hdx.le
      rw [add_mul, div_mul_cancel₀ _ hdx.ne'] at hcn
      have hge' := mul_lt_mul_of_pos_right (cellCountFl_ge h hd8 hc (by linarith) hhi) hdx
      rw [div_mul_cancel₀ _ hdx.ne'] at hge'
      obtain ⟨e1, e2⟩ := abs_le.mp (shift_err (n := cellCountFl fl dx mx ai.maxInit) h hI.high hz (by linarith)).1
      rw [max_eq_left hc]
      constructor <;> linarith
  -- lower end
  have hlow : contLowFl fl dx ai mn + (1 + 40 * ε) * dx ≤ mn ∧
      min mn ai.minInit - 21 / 10 * dx ≤ contLowFl fl dx ai mn := by
    have hz : |ai.minInit - 2 * dx| ≤ 13 / 10 * B := by rw [abs_le]; constructor <;> linarith
    rw [contLowFl]
    split_ifs with hc
    · have hc' : ai.minInit ≤ mn := le_of_lt hc
      have hcb := (cellCountFl_bounds (a := mn) (b := ai.minInit) h hd8 hc' (by linarith)).1
      have hcn := mul_le_mul_of_nonneg_right hcb hdx.le
      rw [add_mul, div_mul_cancel₀ _ hdx.ne'] at hcn
      obtain ⟨e1, e2⟩ := abs_le.mp (shift_err (n := cellCountFl fl dx mn ai.minInit) h hI.low hz (by linarith)).1
      have hn0 : 0 ≤ (cellCountFl fl dx mn ai.minInit : ℝ) * dx := by positivity
      rw [min_eq_right hc']
      constructor <;> linarith
    · have hc' : mn ≤ ai.minInit := not_lt.mp hc
      have hcb := (cellCountFl_bounds (a := ai.minInit) (b := mn) h hd8 hc' (by linarith)).1
      have hcn := mul_le_mul_of_nonneg_right hcb hdx.le
      rw [add_mul, div_mul_cancel₀ _ hdx.ne'] at hcn
      have hge' := mul_lt_mul_of_pos_right (cellCountFl_ge h hd8 hc' (by linarith) hlo) hdx
      rw [div_mul_cancel₀ _ hdx.ne'] at hge'
      obtain ⟨e1, e2⟩ := abs_le.mp (shift_err (n := cellCountFl fl dx ai.minInit mn) h hI.low hz (by linarith)).2
      rw [min_eq_left hc']
      constructor <;> linarith
  obtain ⟨hh1, hh2⟩ := hhigh
  obtain ⟨hl1, hl2⟩ := hlow
  have hmax : max mx ai.maxInit ≤ B := max_le q2 n2
  have hmin : -B ≤ min mn ai.minInit := le_min p1 m1
  have hstop := hr.err (contHighFl fl dx ai mx + dx)
  have hab : |contHighFl fl dx ai mx + dx| ≤ 2 * B := by rw [abs_le]; constructor <;> linarith
  obtain ⟨s1, s2⟩ := abs_le.mp (hstop.trans (mul_le_mul_of_nonneg_left hab hu))
  obtain ⟨nodes, hn1, hn2⟩ := gridFl_ok h (low := contLowFl fl dx ai mn) (stop := fl (contHighFl fl dx ai mx + dx))
    (by rw [abs_le]; constructor <;> linarith) (by linarith)
  refine ⟨nodes, fun fuel hf => ?_, fun x hx => hn2 x ?_ ?_⟩
  · simp only [axisContNodesFl, hmx, hmn, Option.bind_eq_bind, Option.bind_some]
    exact hn1 fuel hf
  · have := hle x hx; linarith
  · have := hge x hx; linarith

/-! ### Examples -/

namespace RoundEx

/-- Three particles on cells of 1/10, in arithmetic with 52 binary digits, with coordinates up to 2. -/
lemma cells_small : 1000 * (1 / 2 ^ 52 * ((2 : ℝ) / (1 / 10)) ^ 2) ≤ 1 := by norm_num

example : ∃ ai nodes, axisInitFl (trunc 52) (1 / 10) 2 none [0, 3 / 10, 1] = some ai ∧
    (∀ fuel : ℕ, 4 * ((2 : ℝ) / (1 / 10)) ≤ fuel → axisInitNodesFl (trunc 52) fuel (1 / 10) ai = some nodes) ∧
    ∀ x ∈ [0, 3 / 10, 1], StencilFl (trunc 52) (1 / 10) (40 * (1 / 2 ^ 52 * (2 / (1 / 10)) ^ 2)) nodes x :=
  C99_first_step (trunc_floats (by norm_num)).toRounding (by norm_num) (by norm_num) cells_small none (by simp)
    (by intro y hy; simp at hy; rcases hy with rfl | rfl | rfl <;> norm_num)

/-- Later the outermost particles are at -3/20 and 5/4, one and a half and two and a half cells outside. -/
example : ∃ ai nodes, axisInitFl (trunc 52) (1 / 10) 2 none [0, 3 / 10, 1] = some ai ∧
    (∀ fuel : ℕ, 4 * ((2 : ℝ) / (1 / 10)) ≤ fuel →
      axisContNodesFl (trunc 52) fuel (1 / 10) ai [-3 / 20, 1 / 2, 5 / 4] = some nodes) ∧
    ∀ x ∈ [-3 / 20, 1 / 2, 5 / 4], StencilFl (trunc 52) (1 / 10) (40 * (1 / 2 ^ 52 * (2 / (1 / 10)) ^ 2)) nodes x := by
  have hr : Rounding (1 / 2 ^ 52) (trunc 52) := (trunc_floats (by norm_num)).toRounding
  have hB0 : ∀ y : ℝ, y ∈ [0, 3 / 10, 1] ∨ (none : Option ℝ) = some y → |y| ≤ 2 := by
    intro y hy; simp at hy; rcases hy with rfl | rfl | rfl <;> norm_num
  obtain ⟨ai, -, hai, -⟩ := C99_first_step hr (by norm_num) (by norm_num) cells_small none (by simp) hB0
  have f1 : Int.fract (3 / 2 : ℝ) = 1 / 2 := by rw [Int.fract_eq_iff]; exact ⟨by norm_num, by norm_num, 1, by norm_num⟩
  have f2 : Int.fract (5 / 2 : ℝ) = 1 / 2 := by rw [Int.fract_eq_iff]; exact ⟨by norm_num, by norm_num, 2, by norm_num⟩
  obtain ⟨nodes, h1, h2⟩ := C99_later_steps_partial (xs := [-3 / 20, 1 / 2, 5 / 4]) hr (by norm_num) (by norm_num)
    (by norm_num) cells_small (by simp) hB0 hai (by simp)
    (by intro y hy; simp at hy; rcases hy with rfl | rfl | rfl <;> norm_num [abs_le])
    (by
      intro m m0 hm hm0
      have e1 : m = -3 / 20 := hm.unique ⟨by simp, by intro y hy; simp at hy; rcases hy with rfl | rfl | rfl <;> norm_num⟩
      have e2 : m0 = 0 := hm0.unique ⟨by simp, by intro y hy; simp at hy; rcases hy with rfl | rfl | rfl <;> norm_num⟩
      rw [e1, e2, show (0 - -3 / 20) / (1 / 10) = (3 / 2 : ℝ) by norm_num]
      refine Or.inr ?_
      rw [f1]; norm_num)
    (by
      intro m m0 hm hm0
      have e1 : m = 5 / 4 := hm.unique ⟨by simp, by intro y hy; simp at hy; rcases hy with rfl | rfl | rfl <;> norm_num⟩
      have e2 : m0 = 1 := hm0.unique ⟨by simp, by intro y hy; simp at hy; rcases hy with rfl | rfl | rfl <;> norm_num⟩
      rw [e1, e2, show (5 / 4 - 1) / (1 / 10) = (5 / 2 : ℝ) by norm_num]
      refine Or.inr ?_
      rw [f2]; norm_num)
  exact ⟨ai, nodes, hai, h1, h2⟩

end RoundEx

end Verif.Props
