import Verif.Lemmas.Spline
import Verif.Lemmas.Index
import Verif.Spec

set_option linter.unusedSectionVars false

/-! Moment identities of the d-dimensional stencil. -/

namespace Verif
open Matrix
variable {K : Type*} [Field K] [LinearOrder K] [IsStrictOrderedRing K] {d : ℕ}

/-- One-dimensional facts about a stencil, `D` the second moment. -/
structure StencilOK (n : Fin d → ℕ) (x : Fin d → K) (s : Stencil d K) : Prop where
  nonneg : ∀ a i, 0 ≤ s.W a i
  sumW : ∀ a, ∑ i, s.W a i = 1
  mom1 : ∀ a, ∑ i, s.W a i * (s.xi a i - x a) = 0
  range : ∀ a, s.base a + 3 < n a

structure StencilGradOK (D : K) (x : Fin d → K) (s : Stencil d K) : Prop where
  mom2 : ∀ a, ∑ i, s.W a i * (s.xi a i - x a) ^ 2 = D
  sumG : ∀ a, ∑ i, s.G a i = 0
  momG : ∀ a, ∑ i, s.G a i * (s.xi a i - x a) = 1
  zero : ∀ a i, s.W a i = 0 → s.G a i = 0

lemma sum_prod_single (f : Fin d → Fin 4 → K) {F : (Fin d → Fin 4) → K} (a : Fin d)
    (hF : ∀ c, F c = ∏ b, f b (c b)) (h : ∀ b, b ≠ a → ∑ i, f b i = 1) :
    ∑ c, F c = ∑ i, f a i := by
  rw [Finset.sum_congr rfl fun c _ => hF c, sum_prod_four,
    Finset.prod_eq_single a (fun b _ hb => h b hb)]
  intro h; exact absurd (Finset.mem_univ a) h

lemma sum_prod_zero (f : Fin d → Fin 4 → K) {F : (Fin d → Fin 4) → K} (a : Fin d)
    (hF : ∀ c, F c = ∏ b, f b (c b)) (h : ∑ i, f a i = 0) :
    ∑ c, F c = 0 := by
  rw [Finset.sum_congr rfl fun c _ => hF c, sum_prod_four]
  exact Finset.prod_eq_zero (Finset.mem_univ a) h

lemma prod_ite_mul (f g : Fin d → K) (a : Fin d) :
    (∏ b, f b) * g a = ∏ b, if b = a then f b * g b else f b := by
  classical
  rw [← Finset.mul_prod_erase Finset.univ f (Finset.mem_univ a),
    ← Finset.mul_prod_erase Finset.univ (fun b => if b = a then f b * g b else f b) (Finset.mem_univ a)]
  simp only [if_true]
  rw [mul_right_comm]
  congr 1
  exact Finset.prod_congr rfl fun b hb => by simp [Finset.ne_of_mem_erase hb]

namespace StencilOK
variable {n : Fin d → ℕ} {x : Fin d → K} {s : Stencil d K} (h : StencilOK n x s)
include h

lemma weight_nonneg (c : Fin d → Fin 4) : 0 ≤ s.weight c :=
  Finset.prod_nonneg fun a _ => h.nonneg a (c a)

lemma sum_weight : ∑ c, s.weight c = 1 := by
  simp only [Stencil.weight]
  rw [sum_prod_four]; exact Finset.prod_eq_one fun a _ => h.sumW a

lemma weight_le_one (c : Fin d → Fin 4) : s.weight c ≤ 1 := by
  rw [← h.sum_weight]
  exact Finset.single_le_sum (fun c _ => h.weight_nonneg c) (Finset.mem_univ c)

lemma sum_weight_pos (a : Fin d) : ∑ c, s.weight c * (s.nodePos c a - x a) = 0 := by
  refine sum_prod_zero (fun b i => if b = a then s.W b i * (s.xi b i - x b) else s.W b i) a
    (fun c => prod_ite_mul (fun b => s.W b (c b)) (fun b => s.xi b (c b) - x b) a) ?_
  simp [h.mom1 a]

lemma sum_weight_nodePos (a : Fin d) : ∑ c, s.weight c * s.nodePos c a = x a := by
  have h1 := h.sum_weight_pos a
  simp only [mul_sub, Finset.sum_sub_distrib, ← Finset.sum_mul, h.sum_weight] at h1
  linarith

lemma sum_weight_smul_pos : ∑ c, s.weight c • (s.nodePos c - x) = 0 := by
  funext a
  simpa [Finset.sum_apply] using h.sum_weight_pos a

lemma node_lt (c : Fin d → Fin 4) (a : Fin d) : s.node c a < n a := by
  have := h.range a; have := (c a).isLt; simp only [Stencil.node]; omega

lemma idx_lt (c : Fin d → Fin 4) : flatIndex n (s.node c) < gridNodes n :=
  flatIndex_lt (h.node_lt c)

lemma idx_inj {c c' : Fin d → Fin 4} (e : flatIndex n (s.node c) = flatIndex n (s.node c')) :
    c = c' := by
  have := flatIndex_inj (h.node_lt c) (h.node_lt c') e
  funext a
  have := congrFun this a
  simp only [Stencil.node] at this
  exact Fin.ext (by omega)

lemma sum_weight_pos_pos {D : K} (hg : StencilGradOK D x s) (a b : Fin d) :
    ∑ c, s.weight c * (s.nodePos c a - x a) * (s.nodePos c b - x b) = if a = b then D else 0 := by
  by_cases hab : a = b
  · subst hab
    rw [if_pos rfl]
    refine (sum_prod_single
      (fun b i => if b = a then s.W b i * ((s.xi b i - x b) ^ 2) else s.W b i) a (fun c => ?_)
      (fun b hb => by simp [hb, h.sumW b])).trans (by simp [hg.mom2 a])
    rw [mul_assoc, ← pow_two]
    exact prod_ite_mul (fun b => s.W b (c b)) (fun b => (s.xi b (c b) - x b) ^ 2) a
  · rw [if_neg hab]
    refine sum_prod_zero (fun e i => if e = b then
          (if e = a then s.W e i * (s.xi e i - x e) else s.W e i) * (s.xi e i - x e)
          else (if e = a then s.W e i * (s.xi e i - x e) else s.W e i)) a (fun c => ?_)
      (by simp [hab, h.mom1 a])
    have h1 : s.weight c * (s.nodePos c a - x a) = _ :=
      prod_ite_mul (fun b => s.W b (c b)) (fun b => s.xi b (c b) - x b) a
    rw [h1]
    exact prod_ite_mul (fun e => if e = a then s.W e (c e) * (s.xi e (c e) - x e) else s.W e (c e))
      (fun b => s.xi b (c b) - x b) b

lemma sum_grad {D : K} (hg : StencilGradOK D x s) (b : Fin d) : ∑ c, s.weightGrad c b = 0 :=
  sum_prod_zero (fun a i => if a = b then s.G a i else s.W a i) b (fun _ => rfl)
    (by simp [hg.sumG b])

lemma sum_grad_vec {D : K} (hg : StencilGradOK D x s) : ∑ c, s.weightGrad c = 0 := by
  funext b; simpa [Finset.sum_apply] using h.sum_grad hg b

lemma sum_grad_pos {D : K} (hg : StencilGradOK D x s) (a b : Fin d) :
    ∑ c, s.weightGrad c b * (s.nodePos c a - x a) = if a = b then 1 else 0 := by
  have key := fun c : Fin d → Fin 4 =>
    prod_ite_mul (fun e => if e = b then s.G e (c e) else s.W e (c e))
      (fun b => s.xi b (c b) - x b) a
  by_cases hab : a = b
  · subst hab
    rw [if_pos rfl]
    refine (sum_prod_single
      (fun e i => if e = a then (if e = a then s.G e i else s.W e i) * (s.xi e i - x e)
        else (if e = a then s.G e i else s.W e i)) a key
      (fun e he => by simp [he, h.sumW e])).trans (by simp [hg.momG a])
  · rw [if_neg hab]
    exact sum_prod_zero
      (fun e i => if e = a then (if e = b then s.G e i else s.W e i) * (s.xi e i - x e)
        else (if e = b then s.G e i else s.W e i)) b key
      (by simp [Ne.symm hab, hg.sumG b])

/-- A node of weight zero has a zero gradient. -/
lemma grad_zero {D : K} (hg : StencilGradOK D x s) {c : Fin d → Fin 4} (hc : s.weight c = 0) :
    s.weightGrad c = 0 := by
  obtain ⟨a, _, ha⟩ := Finset.prod_eq_zero_iff.mp hc
  funext b
  simp only [Stencil.weightGrad, Pi.zero_apply]
  apply Finset.prod_eq_zero (Finset.mem_univ a)
  split_ifs
  · exact hg.zero a (c a) ha
  · exact ha

end StencilOK

/-! ### existence: interior particles have good stencils -/

lemma sequenceFin_some {α : Type*} {d : ℕ} {f : Fin d → Option α} {r : Fin d → α}
    (h : ∀ a, f a = some (r a)) : sequenceFin f = some r := by
  induction d with
  | zero => simp only [sequenceFin]; congr 1; exact Subsingleton.elim _ _
  | succ d ih =>
    have h1 : sequenceFin (Fin.tail f) = some (Fin.tail r) := ih (fun a => h a.succ)
    simp only [sequenceFin, h 0, h1, Option.bind_eq_bind, Option.bind_some, Fin.cons_self_tail]

lemma of_sequenceFin_some {α : Type*} {d : ℕ} {f : Fin d → Option α} {r : Fin d → α}
    (h : sequenceFin f = some r) : ∀ a, f a = some (r a) := by
  induction d with
  | zero => intro a; exact a.elim0
  | succ d ih =>
    simp only [sequenceFin, Option.bind_eq_bind, Option.bind_eq_some_iff] at h
    obtain ⟨a0, h0, r', h1, h2⟩ := h
    injection h2 with h2
    intro a
    subst h2
    refine Fin.cases ?_ (fun b => ?_) a
    · simpa using h0
    · simpa [Fin.tail] using ih h1 b

section exist
variable [FloorRing K]

lemma UniformAxis.getElem {dx : K} {nodes : List K} {x0 : K}
    (h : nodes = (List.range nodes.length).map fun k : ℕ => x0 + k * dx) {k : ℕ}
    (hk : k < nodes.length) : nodes[k] = x0 + k * dx := by
  have : nodes[k]? = some (x0 + k * dx) := by
    rw [h]; simp [hk]
  rw [List.getElem?_eq_getElem hk] at this
  exact Option.some.inj this

/-- For an interior coordinate: the cell offset and the position of the stencil. -/
lemma InsideAxis.base {dx : K} (hdx : 0 < dx) {nodes : List K} (hu : UniformAxis dx nodes) {x : K}
    (hi : InsideAxis dx nodes x) :
    ∃ (b : ℕ) (f : K), 0 ≤ f ∧ f < 1 ∧ baseInt (1 / dx) nodes x = some (b : ℤ) ∧
      b + 3 < nodes.length ∧
      (∀ (k : ℕ) (hk : k < nodes.length),
        (x - nodes[k]) * (1 / dx) = 1 + f + b - k) := by
  obtain ⟨x0, hn⟩ := hu
  obtain ⟨first, last, hf, hl, h1, h2⟩ := hi
  have hlen : 0 < nodes.length := by
    rcases nodes with _ | ⟨a, l⟩
    · simp at hf
    · simp
  have hfirst : first = x0 := by
    rw [List.head?_eq_getElem?, List.getElem?_eq_getElem hlen] at hf
    have := Option.some.inj hf
    rw [UniformAxis.getElem hn hlen] at this
    simpa using this.symm
  have hlast : last = x0 + ((nodes.length - 1 : ℕ) : K) * dx := by
    rw [List.getLast?_eq_getElem?, List.getElem?_eq_getElem (by omega)] at hl
    have := Option.some.inj hl
    rw [UniformAxis.getElem hn (by omega)] at this
    exact this.symm
  subst hfirst
  set q : K := (x - first) * (1 / dx) with hq
  have hxq : x = first + q * dx := by rw [hq]; field_simp; ring
  have hq1 : 1 ≤ q := by
    rw [hq, mul_one_div, le_div_iff₀ hdx]; linarith
  have hfl : (1 : ℤ) ≤ ⌊q⌋ := Int.le_floor.mpr (by simpa using hq1)
  obtain ⟨b, hb⟩ : ∃ b : ℕ, ⌊q⌋ - 1 = (b : ℤ) := ⟨(⌊q⌋ - 1).toNat, by omega⟩
  have hfb : ((⌊q⌋ : ℤ) : K) = (b : K) + 1 := by
    have : ⌊q⌋ = (b : ℤ) + 1 := by omega
    rw [this]; push_cast; ring
  refine ⟨b, q - (b + 1), ?_, ?_, ?_, ?_, ?_⟩
  · have := Int.floor_le q; rw [hfb] at this; linarith
  · have := Int.lt_floor_add_one q; rw [hfb] at this; linarith
  · simp only [baseInt, hf, Option.map_some, ← hq, hb]
  · have h3 : q < ((nodes.length - 1 : ℕ) : K) - 1 := by
      have : x < first + (((nodes.length - 1 : ℕ) : K) - 1) * dx := by rw [hlast] at h2; linarith
      rw [hxq] at this
      have := lt_of_add_lt_add_left this
      exact lt_of_mul_lt_mul_right this hdx.le
    have h4 : ((b : K) + 1) < ((nodes.length - 1 : ℕ) : K) - 1 :=
      lt_of_le_of_lt (by rw [← hfb]; exact Int.floor_le q) h3
    have h5 : ((b + 2 : ℕ) : K) < ((nodes.length - 1 : ℕ) : K) := by push_cast; linarith
    have := Nat.cast_lt.mp h5
    omega
  · intro k hk
    rw [UniformAxis.getElem hn hk, hxq]
    field_simp
    ring

/-- Interior particles: both loops use the same, well-behaved stencil. -/
lemma exists_stencil {deg : Deg} {dx : K} (hdx : 0 < dx) {g : Axes d K}
    (hu : ∀ a, UniformAxis dx (g a)) {x : Fin d → K} (hi : ∀ a, InsideAxis dx (g a) (x a)) :
    ∃ s, stencilP2G deg (1 / dx) g x = some s ∧ stencilG2P deg (1 / dx) g x = some s ∧
      StencilOK g.size x s ∧
      (deg = .two → StencilGradOK (dx * dx / 4) x s) ∧
      (deg = .three → StencilGradOK (dx * dx / 3) x s) ∧
      (∀ c, s.nodePos c = nodeAt g (s.node c)) ∧
      (∀ c, s.weight c = shape deg dx (s.nodePos c) x) ∧
      (∀ c, s.weightGrad c = shapeGrad deg dx (s.nodePos c) x) ∧
      (∀ i, IsNode g i → (∀ c, s.node c ≠ i) → shape deg dx (nodeAt g i) x = 0) := by
  choose b f hf0 hf1 hb hlen harg using fun a => InsideAxis.base hdx (hu a) (hi a)
  have hP : sequenceFin (baseP2G (1 / dx) g x) = some b :=
    sequenceFin_some fun a => by simp only [baseP2G, hb a, Option.map_some, Int.toNat_natCast]
  have hG : sequenceFin (baseG2P (1 / dx) g x) = some b :=
    sequenceFin_some fun a => by
      have h0 : ¬ ((b a : ℤ) < 0) := by omega
      simp only [baseG2P, hb a, Option.bind_some, if_neg h0, Int.toNat_natCast]
  refine ⟨_, by simp only [stencilP2G, hP, Option.bind_some, mkStencil, dif_pos hlen]; rfl,
    by simp only [stencilG2P, hG, Option.bind_some, mkStencil, dif_pos hlen], ?_⟩
  have harg' : ∀ a (i : Fin 4), (x a - (g a)[b a + i.val]'(by have := hlen a; omega)) * (1 / dx)
      = stencilArg (f a) i := fun a i => by
    rw [harg a _ _, stencilArg]; push_cast; ring
  have hpos : ∀ a (i : Fin 4), (g a)[b a + i.val]'(by have := hlen a; omega) - x a
      = - (dx * stencilArg (f a) i) := by
    intro a i; rw [← harg' a i]; field_simp; ring
  refine ⟨⟨?_, ?_, ?_, ?_⟩, ?_, ?_, ?_, ?_, ?_, ?_⟩
  · intro a i; exact N_nonneg _ _
  · intro a; simp only [harg']; exact sum_N (hf0 a) (hf1 a) deg
  · intro a
    simp only [harg', hpos]
    have := sum_N_arg (hf0 a) (hf1 a) deg
    calc _ = -dx * ∑ i, N deg (stencilArg (f a) i) * stencilArg (f a) i := by
          rw [Finset.mul_sum]; exact Finset.sum_congr rfl fun i _ => by ring
      _ = 0 := by rw [this, mul_zero]
  · intro a; exact hlen a
  · rintro rfl
    refine ⟨?_, ?_, ?_, ?_⟩
    · intro a
      simp only [harg', hpos]
      calc _ = dx * dx * ∑ i, N2 (stencilArg (f a) i) * stencilArg (f a) i ^ 2 := by
            rw [Finset.mul_sum]; exact Finset.sum_congr rfl fun i _ => by simp only [N]; ring
        _ = _ := by rw [sum_N2_sq (hf0 a) (hf1 a)]; ring
    · intro a
      simp only [harg', ← Finset.sum_mul, sum_dN (hf0 a) (hf1 a) (deg := .two) (by simp), zero_mul]
    · intro a
      simp only [harg', hpos]
      calc _ = -∑ i, dNdu .two (stencilArg (f a) i) * stencilArg (f a) i := by
            rw [← Finset.sum_neg_distrib]; exact Finset.sum_congr rfl fun i _ => by field_simp
        _ = _ := by rw [sum_dN_arg (hf0 a) (hf1 a) (deg := .two) (by simp)]; ring
    · intro a i h0; simp only at h0 ⊢; rw [dN_eq_zero_of_N_eq_zero h0, zero_mul]
  · rintro rfl
    refine ⟨?_, ?_, ?_, ?_⟩
    · intro a
      simp only [harg', hpos]
      calc _ = dx * dx * ∑ i, N3 (stencilArg (f a) i) * stencilArg (f a) i ^ 2 := by
            rw [Finset.mul_sum]; exact Finset.sum_congr rfl fun i _ => by simp only [N]; ring
        _ = _ := by rw [sum_N3_sq (hf0 a) (hf1 a)]; ring
    · intro a
      simp only [harg', ← Finset.sum_mul, sum_dN (hf0 a) (hf1 a) (deg := .three) (by simp), zero_mul]
    · intro a
      simp only [harg', hpos]
      calc _ = -∑ i, dNdu .three (stencilArg (f a) i) * stencilArg (f a) i := by
            rw [← Finset.sum_neg_distrib]; exact Finset.sum_congr rfl fun i _ => by field_simp
        _ = _ := by rw [sum_dN_arg (hf0 a) (hf1 a) (deg := .three) (by simp)]; ring
    · intro a i h0; simp only at h0 ⊢; rw [dN_eq_zero_of_N_eq_zero h0, zero_mul]
  · intro c
    funext a
    simp only [Stencil.nodePos, nodeAt, Stencil.node]
    rw [List.getD_eq_getElem?_getD, List.getElem?_eq_getElem (by have := hlen a; have := (c a).isLt; omega)]
    rfl
  · intro c; simp only [Stencil.weight, shape, Stencil.nodePos, mul_one_div]
  · intro c; funext e; simp only [Stencil.weightGrad, shapeGrad, Stencil.nodePos, mul_one_div]
  · intro i hi hne
    by_contra hw
    have hw' : ∀ a, N deg ((x a - nodeAt g i a) / dx) ≠ 0 := fun a h0 =>
      hw (Finset.prod_eq_zero (Finset.mem_univ a) h0)
    have hin : ∀ a, b a ≤ i a ∧ i a ≤ b a + 3 := by
      intro a
      have hia := hi a
      have e : (x a - nodeAt g i a) / dx = 1 + f a + b a - i a := by
        rw [← harg a (i a) hia, mul_one_div]
        simp [nodeAt, List.getD_eq_getElem?_getD, List.getElem?_eq_getElem hia]
      by_contra hout
      apply hw' a
      rw [e]
      apply N_out
      rcases Nat.lt_or_ge (i a) (b a) with h1 | h1
      · have : ((i a + 1 : ℕ) : K) ≤ b a := by exact_mod_cast h1
        push_cast at this
        exact le_trans (by have := hf0 a; linarith) (le_abs_self _)
      · have h2 : b a + 4 ≤ i a := by omega
        have : ((b a + 4 : ℕ) : K) ≤ i a := by exact_mod_cast h2
        push_cast at this
        exact le_trans (by have := hf1 a; linarith) (neg_le_abs _)
    refine hne (fun a => ⟨i a - b a, by have := hin a; omega⟩) ?_
    funext a
    have := hin a
    simp only [Stencil.node]; omega

end exist

end Verif
