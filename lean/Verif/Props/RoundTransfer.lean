import Verif.Lemmas.RoundTransfer
import Verif.Lemmas.Local
import Verif.Props.RoundGrid

/-!
# C100: transfers under rounding
-/

set_option linter.unusedSectionVars false
set_option linter.unusedVariables false
set_option linter.unusedSimpArgs false

namespace Verif.Props
open Verif
variable {u : ℝ} {fl : ℝ → ℝ} {d : ℕ}

/-- Spec: the conclusion of C99 for all particles in all directions. -/
def Placed (fl : ℝ → ℝ) (dx e : ℝ) (g : Axes d ℝ) (ps : List (Particle d ℝ)) : Prop :=
  ∀ p ∈ ps, ∀ a, StencilFl fl dx e (g a) (p.x a)

/-- What the transfers compute for a particle at `x`. -/
structure StOk (fl : ℝ → ℝ) (deg : Deg) (dx e : ℝ) (g : Axes d ℝ) (x : Fin d → ℝ) (s : StFl d) : Prop where
  range : ∀ a, s.base a + 3 < (g a).length
  xi : ∀ a (k : Fin 4), s.xi a k = (g a).getD (s.base a + k) 0
  W : ∀ a k, s.W a k = NFl fl deg (argFl fl dx (x a) (s.xi a k))
  far : ∀ a i (hi : i < (g a).length), i < s.base a ∨ s.base a + 3 < i → (2 - e) * dx ≤ |x a - (g a)[i]|
  sum : ∀ a, |∑ k, N deg (argFl fl dx (x a) (s.xi a k)) - 1| ≤ 4 * e
  arg : ∀ a, ∃ f : ℝ, 0 ≤ f ∧ f ≤ 1 ∧ ∀ k : Fin 4, |argFl fl dx (x a) (s.xi a k) - (1 + f - (k : ℕ))| ≤ e

lemma stFl_ok {dx e : ℝ} {g : Axes d ℝ} {x : Fin d → ℝ} (deg : Deg) (h : ∀ a, StencilFl fl dx e (g a) (x a)) :
    ∃ s, stP2GFl fl deg dx g x = some s ∧ stG2PFl fl deg dx g x = some s ∧ StOk fl deg dx e g x s := by
  choose b hb using h
  have hlt : ∀ a, b a + 3 < (g a).length := fun a => (hb a).2.1
  have e1 : (sequenceFin fun a => (baseFl fl dx (g a) (x a)).map Int.toNat) = some b :=
    sequenceFin_some fun a => by rw [(hb a).1]; simp
  have e2 : (sequenceFin fun a => (baseFl fl dx (g a) (x a)).bind fun b => if b < 0 then none else some b.toNat) = some b :=
    sequenceFin_some fun a => by rw [(hb a).1]; simp
  have hget : ∀ a (k : Fin 4), (g a)[b a + k.val]'(by have := hlt a; omega) = (g a).getD (b a + k) 0 := fun a k => by
    rw [List.getD_eq_getElem?_getD, List.getElem?_eq_getElem (by have := hlt a; omega), Option.getD_some]
  refine ⟨_, by rw [stP2GFl, e1, Option.bind_some, mkStFl, dif_pos hlt], by rw [stG2PFl, e2, Option.bind_some, mkStFl, dif_pos hlt],
    hlt, hget, fun a k => rfl, fun a => (hb a).2.2.1, fun a => ?_, fun a => ?_⟩
  · have := (hb a).2.2.2.1 deg
    simp only [hget]
    exact this
  · have := (hb a).2.2.2.2
    simp only [hget]
    exact this

/-- The nodes of a particle (junk where undefined). -/
noncomputable def stOf (fl : ℝ → ℝ) (deg : Deg) (dx : ℝ) (g : Axes d ℝ) (x : Fin d → ℝ) : StFl d :=
  (stP2GFl fl deg dx g x).getD ⟨0, 0, 0⟩

lemma stOf_ok {dx e : ℝ} {g : Axes d ℝ} {x : Fin d → ℝ} (deg : Deg) (h : ∀ a, StencilFl fl dx e (g a) (x a)) :
    stP2GFl fl deg dx g x = some (stOf fl deg dx g x) ∧ stG2PFl fl deg dx g x = some (stOf fl deg dx g x) ∧
      StOk fl deg dx e g x (stOf fl deg dx g x) := by
  obtain ⟨s, h1, h2, h3⟩ := stFl_ok deg h
  have : stOf fl deg dx g x = s := by rw [stOf, h1]; rfl
  rw [this]; exact ⟨h1, h2, h3⟩

/-- All particles with their nodes. -/
noncomputable def withSt (fl : ℝ → ℝ) (deg : Deg) (dx : ℝ) (g : Axes d ℝ) (ps : List (Particle d ℝ)) :
    List (Particle d ℝ × StFl d) := ps.map fun p => (p, stOf fl deg dx g p.x)

lemma P2GFl_eq {e : ℝ} {g : Axes d ℝ} {P : TransferParams ℝ} {ts : List (List (Particle d ℝ))}
    (h : Placed fl P.dx e g ts.flatten) :
    P2GFl fl P g ts = some (p2gFinishFl fl P (p2gAccumulateFl fl P g.size (ts.map (withSt fl P.deg P.dx g)))) := by
  have h1 : (ts.mapM fun t => t.mapM fun p => (stP2GFl fl P.deg P.dx g p.x).map fun s => (p, s)) =
      some (ts.map (withSt fl P.deg P.dx g)) := by
    refine mapM_all fun t ht => mapM_all fun p hp => ?_
    rw [(stOf_ok P.deg (h p (List.mem_flatten.mpr ⟨t, ht, hp⟩))).1]; rfl
  simp only [P2GFl, h1, Option.bind_eq_bind, Option.bind_some]

/-! ### One particle -/

section one
variable {deg : Deg} {dx e : ℝ} {g : Axes d ℝ} {x : Fin d → ℝ} {s : StFl d}

lemma StOk.W_nonneg (h : StOk fl deg dx e g x s) (hr : Rounding u fl) (a : Fin d) (k : Fin 4) : 0 ≤ s.W a k := by
  rw [h.W]; exact NFl_nonneg hr _ _

lemma StOk.node_lt (h : StOk fl deg dx e g x s) (c : Fin d → Fin 4) (a : Fin d) : s.node c a < g.size a := by
  have := h.range a; have := (c a).isLt; simp only [StFl.node, Axes.size]; omega

lemma StOk.idx_inj (h : StOk fl deg dx e g x s) {c c' : Fin d → Fin 4}
    (e : flatIndex g.size (s.node c) = flatIndex g.size (s.node c')) : c = c' := by
  have := flatIndex_inj (h.node_lt c) (h.node_lt c') e
  funext a
  have := congrFun this a
  simp only [StFl.node] at this
  exact Fin.ext (by omega)

lemma NFl_out (hr : Rounding u fl) {deg : Deg} {y : ℝ} (h : 2 ≤ |y|) : NFl fl deg y = 0 := by
  cases deg with
  | one =>
    simp only [NFl, N1Fl]
    have h1 := (abs_le.mp (hr.err (1 - |y|))).2
    rw [abs_of_neg (by linarith : 1 - |y| < 0)] at h1
    refine max_eq_left ?_
    have h2 := mul_le_mul_of_nonneg_right hr.small (by linarith : 0 ≤ -(1 - |y|))
    linarith
  | two => simp only [NFl, N2Fl]; rw [if_neg (by linarith), if_neg (by linarith)]
  | three => simp only [NFl, N3Fl]; rw [if_neg (by linarith), if_neg (by linarith)]

/-- Weights per direction compared with the exact ones at the same node. -/
lemma W_err (hr : Rounding u fl) (hdx : 0 < dx) (x X : ℝ) :
    |NFl fl deg (argFl fl dx x X) - N deg ((x - X) / dx)| ≤ 37 * u := by
  have hu := hr.nonneg
  have hus := hr.small
  have h1 := argFl_err hr hdx x X
  set t := (x - X) / dx
  set y := argFl fl dx x X
  have h2 := NFl_err hr (deg := deg) y
  by_cases ht : |t| ≤ 3
  · have h3 := N_lipschitz deg y t
    have h4 : 4 * u * |t| ≤ 12 * u := by nlinarith
    have : |NFl fl deg y - N deg t| ≤ |NFl fl deg y - N deg y| + |N deg y - N deg t| := by
      have e : NFl fl deg y - N deg t = (NFl fl deg y - N deg y) + (N deg y - N deg t) := by ring
      rw [e]; exact abs_add_le _ _
    linarith
  · rw [not_le] at ht
    have hy : 2 ≤ |y| := by
      have : |t| - |y| ≤ |y - t| := by rw [abs_sub_comm]; exact abs_sub_abs_le_abs_sub t y
      nlinarith
    rw [NFl_out hr hy, N_out (by linarith)]
    simp; linarith

/-- A node with a positive weight is near. -/
lemma StOk.near (h : StOk fl deg dx e g x s) (hr : Rounding u fl) (hdx : 0 < dx) {c : Fin d → Fin 4}
    (hw : 0 < s.weight fl c) (a : Fin d) : |s.pos c a - x a| ≤ 3 * dx := by
  have h1 := (weightFl_near hr c (h.W_nonneg hr)).1
  have h2 : ∏ a, s.W a (c a) ≠ 0 := by
    intro h0
    have := h1.err
    rw [h0] at this
    simp at this
    linarith
  have h3 : s.W a (c a) ≠ 0 := Finset.prod_ne_zero_iff.mp h2 a (Finset.mem_univ a)
  rw [h.W] at h3
  have h4 : |argFl fl dx (x a) (s.xi a (c a))| < 2 := by
    by_contra hc
    exact h3 (NFl_out hr (not_lt.mp hc))
  have h5 := argFl_err hr hdx (x a) (s.xi a (c a))
  have hu := hr.nonneg
  have hus := hr.small
  set y := argFl fl dx (x a) (s.xi a (c a))
  have h6 : |(x a - s.xi a (c a)) / dx| ≤ 3 := by
    have : |(x a - s.xi a (c a)) / dx| - |y| ≤ |y - (x a - s.xi a (c a)) / dx| := by
      rw [abs_sub_comm]; exact abs_sub_abs_le_abs_sub _ _
    nlinarith [abs_nonneg ((x a - s.xi a (c a)) / dx)]
  rw [abs_div, abs_of_pos hdx, div_le_iff₀ hdx, abs_sub_comm] at h6
  exact h6

lemma abs_prod_sub_one_le {ι : Type*} (t : Finset ι) {f : ι → ℝ} {η : ℝ} (hη : 0 ≤ η) (h : ∀ a, |f a - 1| ≤ η) :
    |∏ a ∈ t, f a - 1| ≤ (1 + η) ^ t.card - 1 := by
  classical
  induction t using Finset.induction_on with
  | empty => simp
  | insert a t ha ih =>
    rw [Finset.prod_insert ha, Finset.card_insert_of_notMem ha]
    have e1 : f a * ∏ x ∈ t, f x - 1 = f a * (∏ x ∈ t, f x - 1) + (f a - 1) := by ring
    rw [e1]
    refine (abs_add_le _ _).trans ?_
    rw [abs_mul]
    have hfa : |f a| ≤ 1 + η := by
      have : |f a| ≤ |f a - 1| + |(1 : ℝ)| := by simpa using abs_add_le (f a - 1) 1
      rw [abs_one] at this; linarith [h a]
    have h1 : |f a| * |∏ x ∈ t, f x - 1| ≤ (1 + η) * ((1 + η) ^ t.card - 1) :=
      mul_le_mul hfa ih (abs_nonneg _) (by linarith)
    rw [pow_succ]
    nlinarith [h a]

/-- The weights of all nodes sum to one. -/
lemma StOk.sum_weight (h : StOk fl deg dx e g x s) (hr : Rounding u fl) (hd3 : d ≤ 3)
    (he0 : 0 ≤ e) (he : e ≤ 1 / 25) :
    |∑ c, s.weight fl c - 1| ≤ 16 * e + 420 * u := by
  have hu := hr.nonneg
  have hus := hr.small
  have hη : ∀ a, |∑ k, s.W a k - 1| ≤ 4 * e + 100 * u := by
    intro a
    have h1 := h.sum a
    have h2 : |∑ k, s.W a k - ∑ k, N deg (argFl fl dx (x a) (s.xi a k))| ≤ 100 * u := by
      rw [← Finset.sum_sub_distrib]
      refine (Finset.abs_sum_le_sum_abs _ _).trans ?_
      calc _ ≤ ∑ k : Fin 4, 25 * u := Finset.sum_le_sum fun k _ => by rw [h.W]; exact NFl_err hr _
        _ = 100 * u := by simp; ring
    have e1 : ∑ k, s.W a k - 1 = (∑ k, s.W a k - ∑ k, N deg (argFl fl dx (x a) (s.xi a k))) +
      (∑ k, N deg (argFl fl dx (x a) (s.xi a k)) - 1) := by ring
    rw [e1]
    exact (abs_add_le _ _).trans (by linarith)
  set η := 4 * e + 100 * u with hηd
  have hη0 : 0 ≤ η := by positivity
  have hη1 : η ≤ 26 / 100 := by linarith
  have hprod : |∑ c : Fin d → Fin 4, ∏ a, s.W a (c a) - 1| ≤ 4 * η := by
    have e1 : ∑ c : Fin d → Fin 4, ∏ a, s.W a (c a) = ∏ a, ∑ k, s.W a k := by
      rw [Finset.prod_univ_sum, Fintype.piFinset_univ]
    rw [e1]
    refine (abs_prod_sub_one_le Finset.univ hη0 hη).trans ?_
    have h2 : (1 + η) ^ (Finset.univ : Finset (Fin d)).card ≤ (1 + η) ^ 3 :=
      pow_le_pow_right₀ (by linarith) (by simpa using hd3)
    nlinarith [mul_nonneg hη0 hη0]
  have hrnd : |∑ c, s.weight fl c - ∑ c : Fin d → Fin 4, ∏ a, s.W a (c a)| ≤
      2 * (3 * u) * ∑ c : Fin d → Fin 4, ∏ a, s.W a (c a) := by
    rw [← Finset.sum_sub_distrib, Finset.mul_sum]
    refine (Finset.abs_sum_le_sum_abs _ _).trans (Finset.sum_le_sum fun c _ => ?_)
    exact ((weightFl_near hr c (h.W_nonneg hr)).1.mono hu hd3).simple hu (by push_cast; linarith)
  set S0 := ∑ c : Fin d → Fin 4, ∏ a, s.W a (c a)
  obtain ⟨p1, p2⟩ := abs_le.mp hprod
  obtain ⟨q1, q2⟩ := abs_le.mp hrnd
  have h5 : 2 * (3 * u) * S0 ≤ 20 * u := by
    have : S0 ≤ 3 := by linarith
    nlinarith
  rw [abs_le]
  constructor <;> linarith

/-- The weight at a node, as seen from the textbook. -/
lemma StOk.weight_err (h : StOk fl deg dx e g x s) (hr : Rounding u fl) (hdx : 0 < dx) (hd3 : d ≤ 3)
    (c : Fin d → Fin 4) : |s.weight fl c - ∏ a, N deg ((x a - s.pos c a) / dx)| ≤ 120 * u ∧ s.weight fl c ≤ 2 := by
  have hu := hr.nonneg
  have hus := hr.small
  have hW : ∀ a, |s.W a (c a) - N deg ((x a - s.pos c a) / dx)| ≤ 37 * u := fun a => by
    rw [h.W]; exact W_err hr hdx _ _
  have hW1 : ∀ a, s.W a (c a) ≤ 1 + u := fun a => by
    rw [h.W]; exact NFl_le hr _ _
  have h1 := abs_prod_sub_prod_le (Finset.univ : Finset (Fin d)) (by linarith : 1 ≤ 1 + u) (fun a => h.W_nonneg hr a (c a)) hW1
    (fun a => N_nonneg deg ((x a - s.pos c a) / dx)) (fun a => N_le_one deg _) hW
  have hcard : ((Finset.univ : Finset (Fin d)).card : ℝ) ≤ 3 := by
    rw [Finset.card_univ, Fintype.card_fin]; exact_mod_cast hd3
  have hc3 : (1 + u) ^ 3 ≤ 1 + 4 * u := by nlinarith [mul_nonneg hu hu]
  have hpow : (1 + u) ^ (Finset.univ : Finset (Fin d)).card ≤ 1 + 4 * u :=
    (pow_le_pow_right₀ (by linarith) (by simpa using hd3)).trans hc3
  have h2 : ((Finset.univ : Finset (Fin d)).card : ℝ) * ((1 + u) ^ (Finset.univ : Finset (Fin d)).card * (37 * u)) ≤ 112 * u := by
    have h5 : (1 + u) ^ (Finset.univ : Finset (Fin d)).card * (37 * u) ≤ (1 + 4 * u) * (37 * u) :=
      mul_le_mul_of_nonneg_right hpow (by linarith)
    have h6 : 0 ≤ (1 + 4 * u) * (37 * u) := by positivity
    have h7 := mul_le_mul hcard h5 (by positivity) (by norm_num)
    nlinarith
  have h3 := ((weightFl_near hr c (h.W_nonneg hr)).1.mono hu hd3).simple hu (by push_cast; linarith)
  have hp1 : ∏ a, s.W a (c a) ≤ 1 + 4 * u := by
    refine le_trans ?_ hpow
    have := Finset.prod_le_prod (s := Finset.univ) (fun a _ => h.W_nonneg hr a (c a)) fun a _ => hW1 a
    simpa using this
  have hp0 : 0 ≤ ∏ a, s.W a (c a) := Finset.prod_nonneg fun a _ => h.W_nonneg hr a (c a)
  push_cast at h3
  have h4 : |s.weight fl c - ∏ a, s.W a (c a)| ≤ 7 * u := h3.trans (by nlinarith)
  obtain ⟨a1, a2⟩ := abs_le.mp h1
  obtain ⟨b1, b2⟩ := abs_le.mp h4
  refine ⟨?_, by linarith⟩
  rw [abs_le]; constructor <;> linarith

end one

/-! ### Contributions to a node -/

open Classical in
lemma hits_sum {M : Type*} [AddCommMonoid M] (n : Fin d → ℕ) (l : ℕ) (q : Particle d ℝ × StFl d) (f : Hit d → M) :
    ((hits fl n l q).map f).sum = ∑ c, if fl (1 / 10 ^ 25) < q.2.weight fl c ∧ flatIndex n (q.2.node c) = l then
      f ⟨q.1, q.2.weight fl c, q.2.pos c⟩ else 0 := by
  rw [← sum_allIdx, hits]
  generalize allIdx d = L
  induction L with
  | nil => rfl
  | cons c L ih =>
    rw [List.filter_cons, List.map_cons, List.sum_cons, ← ih]
    split_ifs with h1 h2 h2
    · rw [List.map_cons, List.map_cons, List.sum_cons]
    · exact absurd (by simpa using h1) h2
    · exact absurd (by simpa using h2) h1
    · rw [zero_add]

lemma mem_hits {n : Fin d → ℕ} {l : ℕ} {q : Particle d ℝ × StFl d} {h : Hit d} (hh : h ∈ hits fl n l q) :
    ∃ c, h = ⟨q.1, q.2.weight fl c, q.2.pos c⟩ ∧ fl (1 / 10 ^ 25) < q.2.weight fl c ∧ flatIndex n (q.2.node c) = l := by
  classical
  rw [hits, List.mem_map] at hh
  obtain ⟨c, hc, rfl⟩ := hh
  rw [List.mem_filter] at hc
  exact ⟨c, rfl, by simpa using hc.2⟩

lemma hits_length {deg : Deg} {dx e : ℝ} {g : Axes d ℝ} {q : Particle d ℝ × StFl d} (h : StOk fl deg dx e g q.1.x q.2)
    (l : ℕ) : (hits fl g.size l q).length ≤ 1 := by
  classical
  have h1 := hits_sum (fl := fl) g.size l q (fun _ => 1)
  rw [List.map_const', List.sum_replicate, smul_eq_mul, mul_one] at h1
  rw [h1]
  by_cases hex : ∃ c, fl (1 / 10 ^ 25) < q.2.weight fl c ∧ flatIndex g.size (q.2.node c) = l
  · obtain ⟨c, hc⟩ := hex
    rw [Finset.sum_eq_single c (fun c' _ hne => if_neg fun h' => hne (h.idx_inj (h'.2.trans hc.2.symm)))
      (fun hc' => absurd (Finset.mem_univ c) hc'), if_pos hc]
  · push Not at hex
    rw [Finset.sum_eq_zero fun c _ => if_neg fun h' => hex c h'.1 h'.2]
    exact zero_le_one

/-- All contributions to a node. -/
noncomputable def allHits (fl : ℝ → ℝ) (P : TransferParams ℝ) (g : Axes d ℝ) (ps : List (Particle d ℝ)) (l : ℕ) :
    List (Hit d) := (withSt fl P.deg P.dx g ps).flatMap (hits fl g.size l)

/-- The setting of the theorems: a rounding, particles that C99 holds for, at most `T` threads, not too many roundings. -/
structure Setting (u : ℝ) (fl : ℝ → ℝ) (P : TransferParams ℝ) (e : ℝ) (g : Axes d ℝ) (ps : List (Particle d ℝ)) (T : ℕ) :
    Prop where
  rnd : Rounding u fl
  dx : 0 < P.dx
  dim : d ≤ 3
  e0 : 0 ≤ e
  e1 : e ≤ 1 / 25
  placed : Placed fl P.dx e g ps
  few : (2 * ps.length + T + 2 : ℕ) * u ≤ 1 / 10

namespace Setting
variable {P : TransferParams ℝ} {e : ℝ} {g : Axes d ℝ} {ps : List (Particle d ℝ)} {T : ℕ}
  (hs : Setting u fl P e g ps T)
include hs

lemma stOk {p : Particle d ℝ} (hp : p ∈ ps) : StOk fl P.deg P.dx e g p.x (stOf fl P.deg P.dx g p.x) :=
  (stOf_ok P.deg (hs.placed p hp)).2.2

lemma cut_nonneg : 0 ≤ fl (1 / 10 ^ 25) := hs.rnd.nonneg' (by positivity)

lemma mem_allHits {l : ℕ} {h : Hit d} (hh : h ∈ allHits fl P g ps l) :
    h.p ∈ ps ∧ 0 < h.w ∧ (∀ a, |h.X a - h.p.x a| ≤ 3 * P.dx) := by
  rw [allHits, List.mem_flatMap] at hh
  obtain ⟨q, hq, hh⟩ := hh
  rw [withSt, List.mem_map] at hq
  obtain ⟨p, hp, rfl⟩ := hq
  obtain ⟨c, rfl, h1, h2⟩ := mem_hits hh
  have hw : 0 < (stOf fl P.deg P.dx g p.x).weight fl c := lt_of_le_of_lt hs.cut_nonneg h1
  exact ⟨hp, hw, fun a => (hs.stOk hp).near hs.rnd hs.dx hw a⟩

lemma abs_w (l : ℕ) : ((allHits fl P g ps l).map fun h => |h.w|).sum = ((allHits fl P g ps l).map fun h => h.w).sum := by
  congr 1
  exact List.map_congr_left fun h hh => abs_of_pos (hs.mem_allHits hh).2.1

lemma length_le {t : List (Particle d ℝ)} (ht : ∀ p ∈ t, p ∈ ps) (l : ℕ) :
    ((withSt fl P.deg P.dx g t).flatMap (hits fl g.size l)).length ≤ t.length := by
  rw [List.length_flatMap, withSt, List.map_map]
  calc _ ≤ (t.map fun _ => 1).sum := List.sum_le_sum fun p hp => hits_length (hs.stOk (ht p hp)) l
    _ = t.length := by simp

lemma flatten_with (ts : List (List (Particle d ℝ))) :
    (ts.map (withSt fl P.deg P.dx g)).flatten = withSt fl P.deg P.dx g ts.flatten := by
  unfold withSt; rw [List.map_flatten]

variable {ts : List (List (Particle d ℝ))} (hts : ts.flatten.Perm ps) (hT : ts.length ≤ T)
include hts hT

lemma thread_len {t : List (Particle d ℝ)} (ht : t ∈ ts) : t.length ≤ ps.length ∧ ∀ p ∈ t, p ∈ ps := by
  constructor
  · rw [← hts.length_eq]; exact (List.sublist_flatten_of_mem ht).length_le
  · intro p hp; exact hts.subset (List.mem_flatten.mpr ⟨t, ht, hp⟩)

lemma sum_perm (f : Hit d → ℝ) (l : ℕ) : (((ts.map (withSt fl P.deg P.dx g)).flatten.flatMap (hits fl g.size l)).map f).sum =
    ((allHits fl P g ps l).map f).sum := by
  rw [hs.flatten_with, allHits]
  have hp : (withSt fl P.deg P.dx g ts.flatten).Perm (withSt fl P.deg P.dx g ps) := hts.map _
  exact ((hp.flatMap_right (hits fl g.size l)).map f).sum_eq

/-- The accumulated mass, momentum and friction of a node. -/
lemma node_mass (l : ℕ) : Near u (2 * ps.length + T + 1) ((allHits fl P g ps l).map fun h => h.w).sum
    ((allHits fl P g ps l).map fun h => h.w).sum (p2gAccumulateFl fl P g.size (ts.map (withSt fl P.deg P.dx g)) l).mass := by
  have := merge_near hs.rnd P g.size (ts.map (withSt fl P.deg P.dx g)) l CellFl.mass rfl (fun h => h.w) (fun h => |h.w|)
    (fun _ _ => rfl) (k := 2 * ps.length + 1) (fun t ht => by
      obtain ⟨t, ht', rfl⟩ := List.mem_map.mp ht
      obtain ⟨h1, h2⟩ := hs.thread_len hts hT ht'
      have h3 := hs.length_le h2 l
      rw [threadLocalFl_at]
      exact (fold_mass hs.rnd P _).mono hs.rnd.nonneg (by omega))
  rw [hs.sum_perm hts hT, hs.sum_perm hts hT, hs.abs_w, List.length_map] at this
  exact this.mono hs.rnd.nonneg (by omega)

lemma node_v (l : ℕ) (a : Fin d) : Near u (2 * ps.length + T + 1)
    ((allHits fl P g ps l).map fun h => h.vel fl P a * h.w).sum
    ((allHits fl P g ps l).map fun h => h.speed fl P a * |h.w|).sum
    ((p2gAccumulateFl fl P g.size (ts.map (withSt fl P.deg P.dx g)) l).v a) := by
  have := merge_near hs.rnd P g.size (ts.map (withSt fl P.deg P.dx g)) l (fun g => g.v a) rfl (fun h => h.vel fl P a * h.w)
    (fun h => h.speed fl P a * |h.w|) (fun _ _ => rfl) (k := 2 * ps.length + 1) (fun t ht => by
      obtain ⟨t, ht', rfl⟩ := List.mem_map.mp ht
      obtain ⟨h1, h2⟩ := hs.thread_len hts hT ht'
      have h3 := hs.length_le h2 l
      rw [threadLocalFl_at]
      exact (fold_v hs.rnd P _ a).mono hs.rnd.nonneg (by omega))
  rw [hs.sum_perm hts hT, hs.sum_perm hts hT, List.length_map] at this
  exact this.mono hs.rnd.nonneg (by omega)

lemma node_friction (hm : P.useMibf = true) (l : ℕ) : Near u (2 * ps.length + T + 1)
    ((allHits fl P g ps l).map fun h => h.p.muI * h.w).sum ((allHits fl P g ps l).map fun h => |h.p.muI| * |h.w|).sum
    (p2gAccumulateFl fl P g.size (ts.map (withSt fl P.deg P.dx g)) l).friction := by
  have := merge_near hs.rnd P g.size (ts.map (withSt fl P.deg P.dx g)) l CellFl.friction rfl (fun h => h.p.muI * h.w)
    (fun h => |h.p.muI| * |h.w|) (fun _ _ => if_pos hm) (k := 2 * ps.length + 1) (fun t ht => by
      obtain ⟨t, ht', rfl⟩ := List.mem_map.mp ht
      obtain ⟨h1, h2⟩ := hs.thread_len hts hT ht'
      have h3 := hs.length_le h2 l
      rw [threadLocalFl_at]
      exact (fold_friction hs.rnd P _ hm).mono hs.rnd.nonneg (by omega))
  rw [hs.sum_perm hts hT, hs.sum_perm hts hT, List.length_map] at this
  exact this.mono hs.rnd.nonneg (by omega)

end Setting

lemma ratio_err {S V A m v M E : ℝ} (hr : Rounding u fl) (hS : 0 < S) (hm : |m - S| ≤ E * S) (hv : |v - V| ≤ E * A)
    (hV : |V| ≤ A) (hA : A ≤ M * S) (hE : E ≤ 1 / 5) (hu : 4 * u ≤ E) : |fl (v / m) - V / S| ≤ 3 * E * M := by
  have hu0 := hr.nonneg
  have hE0 : 0 ≤ E := by linarith
  obtain ⟨m1, m2⟩ := abs_le.mp hm
  have hmS : 8 / 10 * S ≤ m := by nlinarith
  have hm0 : 0 < m := by linarith
  have hM0 : 0 ≤ M := by
    have : 0 ≤ M * S := ((abs_nonneg V).trans hV).trans hA
    exact nonneg_of_mul_nonneg_left this hS
  have h1 : |v / m - V / S| ≤ 25 / 10 * (E * M) := by
    have e1 : v / m - V / S = ((v - V) * S + V * (S - m)) / (m * S) := by field_simp; ring
    rw [e1, abs_div, abs_of_pos (mul_pos hm0 hS), div_le_iff₀ (mul_pos hm0 hS)]
    refine (abs_add_le _ _).trans ?_
    rw [abs_mul, abs_mul, abs_of_pos hS, abs_sub_comm S m]
    have a1 : |v - V| * S ≤ E * (M * S) * S :=
      mul_le_mul_of_nonneg_right (hv.trans (mul_le_mul_of_nonneg_left hA hE0)) hS.le
    have a2 : |V| * |m - S| ≤ M * S * (E * S) := mul_le_mul (hV.trans hA) hm (abs_nonneg _) (by positivity)
    have a3 : 25 / 10 * (E * M) * (8 / 10 * S * S) ≤ 25 / 10 * (E * M) * (m * S) :=
      mul_le_mul_of_nonneg_left (mul_le_mul_of_nonneg_right hmS hS.le) (by positivity)
    linarith
  have h2 : |V / S| ≤ M := by
    rw [abs_div, abs_of_pos hS, div_le_iff₀ hS]; exact hV.trans hA
  have h3 := hr.err (v / m)
  have h4 : |v / m| ≤ 15 / 10 * M := by
    have : |v / m| ≤ |v / m - V / S| + |V / S| := by simpa using abs_add_le (v / m - V / S) (V / S)
    have : E * M ≤ 1 / 5 * M := mul_le_mul_of_nonneg_right hE hM0
    linarith
  have h5 : u * |v / m| ≤ E / 4 * (15 / 10 * M) := mul_le_mul (by linarith) h4 (abs_nonneg _) (by linarith)
  have e2 : fl (v / m) - V / S = (fl (v / m) - v / m) + (v / m - V / S) := by ring
  rw [e2]
  refine (abs_add_le _ _).trans ?_
  have : 0 ≤ E * M := by positivity
  linarith

lemma sum_le_mul {α : Type*} {f w : α → ℝ} {M : ℝ} : ∀ {L : List α}, (∀ h ∈ L, f h ≤ M) → (∀ h ∈ L, 0 ≤ w h) →
    (L.map fun h => f h * w h).sum ≤ M * (L.map w).sum
  | [], _, _ => by simp
  | h :: L, hf, hw => by
    have h1 := mul_le_mul_of_nonneg_right (hf h List.mem_cons_self) (hw h List.mem_cons_self)
    have h2 := sum_le_mul (L := L) (fun x hx => hf x (List.mem_cons_of_mem _ hx)) fun x hx => hw x (List.mem_cons_of_mem _ hx)
    simp only [List.map_cons, List.sum_cons]
    linarith

lemma le_sum_mul {α : Type*} {f w : α → ℝ} {M : ℝ} : ∀ {L : List α}, (∀ h ∈ L, M ≤ f h) → (∀ h ∈ L, 0 ≤ w h) →
    M * (L.map w).sum ≤ (L.map fun h => f h * w h).sum
  | [], _, _ => by simp
  | h :: L, hf, hw => by
    have h1 := mul_le_mul_of_nonneg_right (hf h List.mem_cons_self) (hw h List.mem_cons_self)
    have h2 := le_sum_mul (L := L) (fun x hx => hf x (List.mem_cons_of_mem _ hx)) fun x hx => hw x (List.mem_cons_of_mem _ hx)
    simp only [List.map_cons, List.sum_cons]
    linarith

lemma sum_weights_nonneg {α : Type*} {w : α → ℝ} {L : List α} (hw : ∀ h ∈ L, 0 ≤ w h) : 0 ≤ (L.map w).sum :=
  List.sum_nonneg fun x hx => by obtain ⟨h, hh, rfl⟩ := List.mem_map.mp hx; exact hw h hh

/-- Spec: `M` bounds what the particles contribute to component `a` of nodal velocities: the velocity and, with APIC, the
affine part `B (X - x) D⁻¹` at places `X` up to three cells away. -/
def SpeedBound (P : TransferParams ℝ) (ps : List (Particle d ℝ)) (a : Fin d) (M : ℝ) : Prop :=
  ∀ p ∈ ps, ∀ X : Fin d → ℝ, (∀ b, |X b - p.x b| ≤ 3 * P.dx) →
    |p.v a| + (if P.flipRatio < 0 then (∑ b, |p.Bmat a b * (X b - p.x b)|) * |P.apicDinverse| else 0) ≤ M

/-- Spec: the velocities, with APIC including the affine part at places up to three cells away, are between `lo` and `hi`. -/
def Between (P : TransferParams ℝ) (ps : List (Particle d ℝ)) (a : Fin d) (lo hi : ℝ) : Prop :=
  ∀ p ∈ ps, ∀ X : Fin d → ℝ, (∀ b, |X b - p.x b| ≤ 3 * P.dx) →
    lo ≤ p.v a + (if P.flipRatio < 0 then (∑ b, p.Bmat a b * (X b - p.x b)) * P.apicDinverse else 0) ∧
    p.v a + (if P.flipRatio < 0 then (∑ b, p.Bmat a b * (X b - p.x b)) * P.apicDinverse else 0) ≤ hi

/-- `SpeedBound` with the computed affine part. -/
def SpeedBoundFl (fl : ℝ → ℝ) (P : TransferParams ℝ) (ps : List (Particle d ℝ)) (a : Fin d) (M : ℝ) : Prop :=
  ∀ p ∈ ps, ∀ X : Fin d → ℝ, (∀ b, |X b - p.x b| ≤ 3 * P.dx) →
    |p.v a| + (if P.flipRatio < 0 then |apicFl fl P.apicDinverse p X a| else 0) ≤ M

/-- `Between` with the computed affine part. -/
def BetweenFl (fl : ℝ → ℝ) (P : TransferParams ℝ) (ps : List (Particle d ℝ)) (a : Fin d) (lo hi : ℝ) : Prop :=
  ∀ p ∈ ps, ∀ X : Fin d → ℝ, (∀ b, |X b - p.x b| ≤ 3 * P.dx) →
    lo ≤ p.v a + (if P.flipRatio < 0 then apicFl fl P.apicDinverse p X a else 0) ∧
    p.v a + (if P.flipRatio < 0 then apicFl fl P.apicDinverse p X a else 0) ≤ hi

/-- The computed affine part is close to the exact one. -/
lemma apicFl_err (hr : Rounding u fl) (hd : d ≤ 3) (dinv : ℝ) (p : Particle d ℝ) (X : Fin d → ℝ) (a : Fin d) :
    |apicFl fl dinv p X a - (∑ b, p.Bmat a b * (X b - p.x b)) * dinv| ≤
      12 * u * ((∑ b, |p.Bmat a b * (X b - p.x b)|) * |dinv|) ∧
    |apicFl fl dinv p X a| ≤ (1 + 12 * u) * ((∑ b, |p.Bmat a b * (X b - p.x b)|) * |dinv|) := by
  have hu := hr.nonneg
  have hus := hr.small
  have h := (apicFl_near hr dinv p X a).mono hu (by omega : d + 3 ≤ 6)
  have h1 := h.simple hu (by push_cast; linarith)
  have h2 := h.le hu
  have h3 := pow_sub_one_le hu 6 (by push_cast; linarith)
  push_cast at h1 h3
  refine ⟨by linarith, h2.trans (mul_le_mul_of_nonneg_right (by linarith) h.nonneg)⟩

lemma SpeedBound.nonneg {P : TransferParams ℝ} {ps : List (Particle d ℝ)} {a : Fin d} {M : ℝ} (h : SpeedBound P ps a M)
    (hdx : 0 < P.dx) {p : Particle d ℝ} (hp : p ∈ ps) : 0 ≤ M := by
  refine le_trans ?_ (h p hp p.x fun b => by simp only [sub_self, abs_zero]; linarith)
  split_ifs <;> positivity

lemma SpeedBound.computed {P : TransferParams ℝ} {ps : List (Particle d ℝ)} {a : Fin d} {M : ℝ} (h : SpeedBound P ps a M)
    (hr : Rounding u fl) (hd : d ≤ 3) : SpeedBoundFl fl P ps a ((1 + 12 * u) * M) := by
  intro p hp X hX
  have h1 := h p hp X hX
  have hu := hr.nonneg
  have h2 := (apicFl_err hr hd P.apicDinverse p X a).2
  have h3 := mul_le_mul_of_nonneg_left h1 (by linarith : 0 ≤ 1 + 12 * u)
  have h4 : 0 ≤ u * |p.v a| := by positivity
  split_ifs at h1 h3 ⊢ with hc <;> linarith

lemma Between.computed {P : TransferParams ℝ} {ps : List (Particle d ℝ)} {a : Fin d} {M lo hi : ℝ} (h : Between P ps a lo hi)
    (hM : SpeedBound P ps a M) (hr : Rounding u fl) (hd : d ≤ 3) :
    BetweenFl fl P ps a (lo - 12 * u * M) (hi + 12 * u * M) := by
  intro p hp X hX
  have h1 := h p hp X hX
  have hu := hr.nonneg
  obtain ⟨h2, h3⟩ := abs_le.mp (apicFl_err hr hd P.apicDinverse p X a).1
  have h4 := mul_le_mul_of_nonneg_left (hM p hp X hX) (by linarith : 0 ≤ 12 * u)
  have h5 : 0 ≤ u * |p.v a| := by positivity
  split_ifs at h1 h4 ⊢ with hc
  · constructor <;> linarith [h1.1, h1.2]
  · constructor <;> linarith [h1.1, h1.2]

namespace Setting
variable {P : TransferParams ℝ} {e : ℝ} {g : Axes d ℝ} {ps : List (Particle d ℝ)} {T : ℕ}
  (hs : Setting u fl P e g ps T)
include hs

/-- The sum of the weights at a node. -/
noncomputable def wsum (_ : Setting u fl P e g ps T) (l : ℕ) : ℝ := ((allHits fl P g ps l).map fun h => h.w).sum

lemma wsum_nonneg (l : ℕ) : 0 ≤ hs.wsum l := sum_weights_nonneg fun h hh => (hs.mem_allHits hh).2.1.le

/-- The roundings, and a bound of the errors. -/
lemma errs : 0 ≤ u ∧ 4 * u ≤ 2 * ((2 * ps.length + T + 2 : ℕ) * u) ∧ 2 * ((2 * ps.length + T + 2 : ℕ) * u) ≤ 1 / 5 := by
  have hu := hs.rnd.nonneg
  have := hs.few
  refine ⟨hu, ?_, by linarith⟩
  have : (2 : ℝ) ≤ ((2 * ps.length + T + 2 : ℕ) : ℝ) := by push_cast; have := Nat.cast_nonneg (α := ℝ) T; have := Nat.cast_nonneg (α := ℝ) ps.length; linarith
  nlinarith

variable {ts : List (List (Particle d ℝ))} (hts : ts.flatten.Perm ps) (hT : ts.length ≤ T)
include hts hT

lemma near_few {S A x : ℝ} (h : Near u (2 * ps.length + T + 1) S A x) :
    |x - S| ≤ 2 * ((2 * ps.length + T + 2 : ℕ) * u) * A :=
  (h.mono hs.rnd.nonneg (by omega : 2 * ps.length + T + 1 ≤ 2 * ps.length + T + 2)).simple hs.rnd.nonneg (by linarith [hs.few])

lemma raw_pos (l : ℕ) : 0 < (p2gAccumulateFl fl P g.size (ts.map (withSt fl P.deg P.dx g)) l).mass ↔ 0 < hs.wsum l := by
  have h1 := hs.near_few hts hT (hs.node_mass hts hT l)
  have h2 := hs.errs
  have h3 := hs.wsum_nonneg l
  change |_ - hs.wsum l| ≤ _ * hs.wsum l at h1
  obtain ⟨a, b⟩ := abs_le.mp h1
  constructor
  · intro h
    rcases h3.eq_or_lt with h4 | h4
    · rw [← h4] at b; linarith
    · exact h4
  · intro h
    nlinarith

lemma node_mean (l : ℕ) (a : Fin d) {M : ℝ} (hM : SpeedBoundFl fl P ps a M) (hS : 0 < hs.wsum l) :
    |fl ((p2gAccumulateFl fl P g.size (ts.map (withSt fl P.deg P.dx g)) l).v a /
        (p2gAccumulateFl fl P g.size (ts.map (withSt fl P.deg P.dx g)) l).mass) -
      ((allHits fl P g ps l).map fun h => h.vel fl P a * h.w).sum / hs.wsum l| ≤
      3 * (2 * ((2 * ps.length + T + 2 : ℕ) * u)) * M := by
  obtain ⟨-, e1, e2⟩ := hs.errs
  have hn := hs.node_v hts hT l a
  refine ratio_err hs.rnd hS (hs.near_few hts hT (hs.node_mass hts hT l)) (hs.near_few hts hT hn) hn.bound ?_ e2 e1
  have : ((allHits fl P g ps l).map fun h => h.speed fl P a * |h.w|) =
      ((allHits fl P g ps l).map fun h => h.speed fl P a * h.w) :=
    List.map_congr_left fun h hh => by rw [abs_of_pos (hs.mem_allHits hh).2.1]
  rw [this]
  exact sum_le_mul (fun h hh => hM h.p (hs.mem_allHits hh).1 h.X (hs.mem_allHits hh).2.2)
    fun h hh => (hs.mem_allHits hh).2.1.le

lemma node_mean_friction (hm : P.useMibf = true) (l : ℕ) {M : ℝ} (hM : ∀ p ∈ ps, |p.muI| ≤ M) (hS : 0 < hs.wsum l) :
    |fl ((p2gAccumulateFl fl P g.size (ts.map (withSt fl P.deg P.dx g)) l).friction /
        (p2gAccumulateFl fl P g.size (ts.map (withSt fl P.deg P.dx g)) l).mass) -
      ((allHits fl P g ps l).map fun h => h.p.muI * h.w).sum / hs.wsum l| ≤
      3 * (2 * ((2 * ps.length + T + 2 : ℕ) * u)) * M := by
  obtain ⟨-, e1, e2⟩ := hs.errs
  have hn := hs.node_friction hts hT hm l
  refine ratio_err hs.rnd hS (hs.near_few hts hT (hs.node_mass hts hT l)) (hs.near_few hts hT hn) hn.bound ?_ e2 e1
  have : ((allHits fl P g ps l).map fun h => |h.p.muI| * |h.w|) =
      ((allHits fl P g ps l).map fun h => |h.p.muI| * h.w) :=
    List.map_congr_left fun h hh => by rw [abs_of_pos (hs.mem_allHits hh).2.1]
  rw [this]
  exact sum_le_mul (fun h hh => hM h.p (hs.mem_allHits hh).1) fun h hh => (hs.mem_allHits hh).2.1.le

/-- The nodal mass. -/
lemma mass_err (hmp : 0 ≤ P.particleMass) (l : ℕ) :
    |fl ((p2gAccumulateFl fl P g.size (ts.map (withSt fl P.deg P.dx g)) l).mass * P.particleMass) -
      hs.wsum l * P.particleMass| ≤ 2 * ((2 * ps.length + T + 2 : ℕ) * u) * (hs.wsum l * P.particleMass) := by
  have e0 : Near u 0 P.particleMass P.particleMass P.particleMass := by
    have := Near.exact (u := u) P.particleMass; rwa [abs_of_nonneg hmp] at this
  have h1 := (hs.node_mass hts hT l).mul hs.rnd e0
  exact h1.simple hs.rnd.nonneg (by have := hs.few; linarith)

lemma mass_pos (hmp : 0 < P.particleMass) (l : ℕ) :
    0 < fl ((p2gAccumulateFl fl P g.size (ts.map (withSt fl P.deg P.dx g)) l).mass * P.particleMass) ↔ 0 < hs.wsum l := by
  obtain ⟨a, b⟩ := abs_le.mp (hs.mass_err hts hT hmp.le l)
  obtain ⟨-, -, e2⟩ := hs.errs
  constructor
  · intro h
    rcases (hs.wsum_nonneg l).eq_or_lt with h4 | h4
    · rw [← h4] at b; simp at b; linarith
    · exact h4
  · intro h
    have : 0 < hs.wsum l * P.particleMass := mul_pos h hmp
    nlinarith

lemma p2g_eq : P2GFl fl P g ts =
    some (p2gFinishFl fl P (p2gAccumulateFl fl P g.size (ts.map (withSt fl P.deg P.dx g)))) :=
  P2GFl_eq (e := e) fun p hp => hs.placed p (hts.subset hp)

end Setting

/-! ### The theorems -/

section main
variable {P : TransferParams ℝ} {e : ℝ} {g : Axes d ℝ} {ps : List (Particle d ℝ)} {T : ℕ}
  {ts ts' : List (List (Particle d ℝ))}

/-- `C100_order` with the computed affine part. -/
lemma orderFl (hs : Setting u fl P e g ps T) (hmp : 0 ≤ P.particleMass)
    (hts : ts.flatten.Perm ps) (hT : ts.length ≤ T) (hts' : ts'.flatten.Perm ps) (hT' : ts'.length ≤ T) :
    ∃ G G', P2GFl fl P g ts = some G ∧ P2GFl fl P g ts' = some G' ∧ ∀ l,
      |(G' l).mass - (G l).mass| ≤ 5 * ((2 * ps.length + T + 2 : ℕ) * u) * (G l).mass ∧
      ∀ a M, SpeedBoundFl fl P ps a M → 0 ≤ M → |(G' l).v a - (G l).v a| ≤ 12 * ((2 * ps.length + T + 2 : ℕ) * u) * M := by
  refine ⟨_, _, hs.p2g_eq hts hT, hs.p2g_eq hts' hT', fun l => ⟨?_, fun a M hM hM0 => ?_⟩⟩
  · have h1 := hs.mass_err hts hT hmp l
    have h2 := hs.mass_err hts' hT' hmp l
    obtain ⟨-, -, e2⟩ := hs.errs
    set K := ((2 * ps.length + T + 2 : ℕ) : ℝ) * u
    have hK0 : 0 ≤ K := mul_nonneg (Nat.cast_nonneg _) hs.rnd.nonneg
    have hS := mul_nonneg (hs.wsum_nonneg l) hmp
    show |fl _ - fl _| ≤ 5 * K * fl _
    obtain ⟨a1, a2⟩ := abs_le.mp h1
    obtain ⟨b1, b2⟩ := abs_le.mp h2
    set S := hs.wsum l * P.particleMass
    set m := fl ((p2gAccumulateFl fl P g.size (ts.map (withSt fl P.deg P.dx g)) l).mass * P.particleMass)
    have h3 : 8 / 10 * S ≤ m := by nlinarith
    have h4 : 5 * K * (8 / 10 * S) ≤ 5 * K * m := mul_le_mul_of_nonneg_left h3 (by linarith)
    rw [abs_le]
    constructor <;> linarith
  · show |(if _ then _ else _) - (if _ then _ else _)| ≤ _
    by_cases hS : 0 < hs.wsum l
    · rw [if_pos ((hs.raw_pos hts hT l).mpr hS), if_pos ((hs.raw_pos hts' hT' l).mpr hS)]
      have h1 := hs.node_mean hts hT l a hM hS
      have h2 := hs.node_mean hts' hT' l a hM hS
      obtain ⟨a1, a2⟩ := abs_le.mp h1
      obtain ⟨b1, b2⟩ := abs_le.mp h2
      rw [abs_le]
      constructor <;> linarith
    · rw [if_neg (fun h => hS ((hs.raw_pos hts hT l).mp h)), if_neg (fun h => hS ((hs.raw_pos hts' hT' l).mp h))]
      have hK0 : 0 ≤ ((2 * ps.length + T + 2 : ℕ) : ℝ) * u := mul_nonneg (Nat.cast_nonneg _) hs.rnd.nonneg
      simp only [sub_zero, abs_zero]
      positivity

/-- **C100** With rounding, other numbers of threads and other distributions of the particles change nodal masses and
velocities only by rounding errors, relative to the mass of the node and the speed of the particles. -/
theorem C100_order (hs : Setting u fl P e g ps T) (hmp : 0 ≤ P.particleMass)
    (hts : ts.flatten.Perm ps) (hT : ts.length ≤ T) (hts' : ts'.flatten.Perm ps) (hT' : ts'.length ≤ T) :
    ∃ G G', P2GFl fl P g ts = some G ∧ P2GFl fl P g ts' = some G' ∧ ∀ l,
      |(G' l).mass - (G l).mass| ≤ 5 * ((2 * ps.length + T + 2 : ℕ) * u) * (G l).mass ∧
      ∀ a M, SpeedBound P ps a M → 0 ≤ M → |(G' l).v a - (G l).v a| ≤ 13 * ((2 * ps.length + T + 2 : ℕ) * u) * M := by
  obtain ⟨G, G', h1, h2, h3⟩ := orderFl hs hmp hts hT hts' hT'
  refine ⟨G, G', h1, h2, fun l => ⟨(h3 l).1, fun a M hM hM0 => ?_⟩⟩
  have hu := hs.rnd.nonneg
  have h4 := (h3 l).2 a _ (hM.computed hs.rnd hs.dim) (by positivity)
  have hK0 : 0 ≤ ((2 * ps.length + T + 2 : ℕ) : ℝ) * u := mul_nonneg (Nat.cast_nonneg _) hu
  have hKM : 0 ≤ ((2 * ps.length + T + 2 : ℕ) : ℝ) * u * M := mul_nonneg hK0 hM0
  have h5 := mul_le_mul_of_nonneg_left hs.rnd.small hKM
  linarith

/-- `C100_velocity` with the computed affine part. -/
lemma velocityFl (hs : Setting u fl P e g ps T) (hts : ts.flatten.Perm ps) (hT : ts.length ≤ T)
    (hmp : 0 < P.particleMass) {a : Fin d} {M lo hi : ℝ} (hM : SpeedBoundFl fl P ps a M) (hb : BetweenFl fl P ps a lo hi) :
    ∃ G, P2GFl fl P g ts = some G ∧ ∀ l,
      (0 < (G l).mass → lo - 6 * ((2 * ps.length + T + 2 : ℕ) * u) * M ≤ (G l).v a ∧
        (G l).v a ≤ hi + 6 * ((2 * ps.length + T + 2 : ℕ) * u) * M) ∧
      ((G l).mass ≤ 0 → (G l).v a = 0) := by
  refine ⟨_, hs.p2g_eq hts hT, fun l => ⟨fun hl => ?_, fun hl => ?_⟩⟩
  · have hS := (hs.mass_pos hts hT hmp l).mp hl
    show lo - _ ≤ (if _ then _ else _) ∧ (if _ then _ else _) ≤ hi + _
    rw [if_pos ((hs.raw_pos hts hT l).mpr hS)]
    have h1 := hs.node_mean hts hT l a hM hS
    obtain ⟨a1, a2⟩ := abs_le.mp h1
    have h2 : ((allHits fl P g ps l).map fun h => h.vel fl P a * h.w).sum / hs.wsum l ≤ hi := by
      rw [div_le_iff₀ hS]
      exact sum_le_mul (fun h hh => (hb h.p (hs.mem_allHits hh).1 h.X (hs.mem_allHits hh).2.2).2)
        fun h hh => (hs.mem_allHits hh).2.1.le
    have h3 : lo ≤ ((allHits fl P g ps l).map fun h => h.vel fl P a * h.w).sum / hs.wsum l := by
      rw [le_div_iff₀ hS]
      exact le_sum_mul (fun h hh => (hb h.p (hs.mem_allHits hh).1 h.X (hs.mem_allHits hh).2.2).1)
        fun h hh => (hs.mem_allHits hh).2.1.le
    constructor <;> linarith
  · show (if _ then _ else _) = (0 : ℝ)
    rw [if_neg (fun h => not_lt.mpr hl ((hs.mass_pos hts hT hmp l).mpr ((hs.raw_pos hts hT l).mp h)))]

/-- **C100** With rounding, the velocity of a node with mass, however small that is, is in the range of the velocities of the
particles, up to rounding errors relative to their speed; the velocity of a node without mass is zero. -/
theorem C100_velocity (hs : Setting u fl P e g ps T) (hts : ts.flatten.Perm ps) (hT : ts.length ≤ T)
    (hmp : 0 < P.particleMass) {a : Fin d} {M lo hi : ℝ} (hM : SpeedBound P ps a M) (hb : Between P ps a lo hi) :
    ∃ G, P2GFl fl P g ts = some G ∧ ∀ l,
      (0 < (G l).mass → lo - 10 * ((2 * ps.length + T + 2 : ℕ) * u) * M ≤ (G l).v a ∧
        (G l).v a ≤ hi + 10 * ((2 * ps.length + T + 2 : ℕ) * u) * M) ∧
      ((G l).mass ≤ 0 → (G l).v a = 0) := by
  obtain ⟨G, h1, h2⟩ := velocityFl hs hts hT hmp (hM.computed hs.rnd hs.dim) (hb.computed hM hs.rnd hs.dim)
  refine ⟨G, h1, fun l => ⟨fun hl => ?_, (h2 l).2⟩⟩
  obtain ⟨h3, h4⟩ := (h2 l).1 hl
  have hu := hs.rnd.nonneg
  -- there is a particle
  have hne : ∃ p, p ∈ ps := by
    rw [hs.p2g_eq hts hT] at h1
    injection h1 with h1
    rw [← h1] at hl
    have hS := (hs.mass_pos hts hT hmp l).mp hl
    cases hps : ps with
    | nil => subst hps; exact absurd hS (lt_irrefl 0)
    | cons p ps' => exact ⟨p, List.mem_cons_self⟩
  obtain ⟨p, hp⟩ := hne
  have hM0 := hM.nonneg hs.dx hp
  have hlen : 1 ≤ ps.length := List.length_pos_of_mem hp
  have hK : (4 : ℝ) ≤ ((2 * ps.length + T + 2 : ℕ) : ℝ) := by exact_mod_cast (by omega : 4 ≤ 2 * ps.length + T + 2)
  have hK4 := mul_le_mul_of_nonneg_right hK (mul_nonneg hu hM0)
  have hKM : 0 ≤ ((2 * ps.length + T + 2 : ℕ) : ℝ) * u * M := mul_nonneg (mul_nonneg (Nat.cast_nonneg _) hu) hM0
  have h5 := mul_le_mul_of_nonneg_left hs.rnd.small hKM
  constructor <;> linarith

/-- **C100** With rounding, the friction coefficient of a node with mass is in the range of those of the particles, up to
rounding errors. -/
theorem C100_friction (hs : Setting u fl P e g ps T) (hts : ts.flatten.Perm ps) (hT : ts.length ≤ T)
    (hm : P.useMibf = true) (hmp : 0 < P.particleMass) {lo hi M : ℝ}
    (hb : ∀ p ∈ ps, lo ≤ p.muI ∧ p.muI ≤ hi) (hM : ∀ p ∈ ps, |p.muI| ≤ M) :
    ∃ G, P2GFl fl P g ts = some G ∧ ∀ l, 0 < (G l).mass →
      lo - 6 * ((2 * ps.length + T + 2 : ℕ) * u) * M ≤ (G l).friction ∧
      (G l).friction ≤ hi + 6 * ((2 * ps.length + T + 2 : ℕ) * u) * M := by
  refine ⟨_, hs.p2g_eq hts hT, fun l hl => ?_⟩
  have hS := (hs.mass_pos hts hT hmp l).mp hl
  show lo - _ ≤ (if _ then _ else _) ∧ (if _ then _ else _) ≤ hi + _
  rw [if_pos hm]
  obtain ⟨a1, a2⟩ := abs_le.mp (hs.node_mean_friction hts hT hm l hM hS)
  have h2 : ((allHits fl P g ps l).map fun h => h.p.muI * h.w).sum / hs.wsum l ≤ hi := by
    rw [div_le_iff₀ hS]
    exact sum_le_mul (fun h hh => (hb h.p (hs.mem_allHits hh).1).2) fun h hh => (hs.mem_allHits hh).2.1.le
  have h3 : lo ≤ ((allHits fl P g ps l).map fun h => h.p.muI * h.w).sum / hs.wsum l := by
    rw [le_div_iff₀ hS]
    exact le_sum_mul (fun h hh => (hb h.p (hs.mem_allHits hh).1).1) fun h hh => (hs.mem_allHits hh).2.1.le
  constructor <;> linarith

/-! Masses -/

lemma N_far {deg : Deg} {t e : ℝ} (he : 0 ≤ e) (h : 2 - e ≤ |t|) : N deg t ≤ e := by
  rcases le_total 2 |t| with h2 | h2
  · rw [N_out h2]; exact he
  · rcases le_total 0 t with h0 | h0
    · rw [abs_of_nonneg h0] at h h2
      have h1 := N_lipschitz deg t 2
      rw [N_out (u := (2 : ℝ)) (by norm_num), sub_zero, abs_of_nonneg (N_nonneg _ _), abs_sub_comm, abs_of_nonneg (by linarith)] at h1
      linarith
    · rw [abs_of_nonpos h0] at h h2
      have h1 := N_lipschitz deg t (-2)
      rw [N_out (u := (-2 : ℝ)) (by norm_num), sub_zero, abs_of_nonneg (N_nonneg _ _), abs_of_nonneg (by linarith)] at h1
      linarith

lemma one_hit (hs : Setting u fl P e g ps T) {p : Particle d ℝ} (hp : p ∈ ps) {i : Fin d → ℕ} (hi : ∀ a, i a < (g a).length) :
    |((hits fl g.size (flatIndex g.size i) (p, stOf fl P.deg P.dx g p.x)).map fun h => h.w).sum -
      ∏ a, N P.deg ((p.x a - nodePosOf g i a) / P.dx)| ≤ e + 120 * u + 2 / 10 ^ 25 := by
  classical
  have hu := hs.rnd.nonneg
  have hus := hs.rnd.small
  have he := hs.e0
  have ho := hs.stOk hp
  have hcut : fl (1 / 10 ^ 25) ≤ 2 / 10 ^ 25 := by
    have := hs.rnd.le (x := 1 / 10 ^ 25) (by positivity)
    have h2 : u * (1 / 10 ^ 25) ≤ 1 * (1 / 10 ^ 25) := mul_le_mul_of_nonneg_right (by linarith) (by positivity)
    linarith
  set s := stOf fl P.deg P.dx g p.x
  rw [hits_sum]
  simp only
  by_cases hex : ∃ c, s.node c = i
  · obtain ⟨c, rfl⟩ := hex
    rw [Finset.sum_eq_single c (fun c' _ hne => if_neg fun h' => hne (ho.idx_inj h'.2))
      (fun hc' => absurd (Finset.mem_univ c) hc')]
    obtain ⟨h1, -⟩ := ho.weight_err hs.rnd hs.dx hs.dim c
    have hpos : ∀ a, s.pos c a = nodePosOf g (s.node c) a := fun a => ho.xi a (c a)
    simp only [hpos] at h1
    have hw0 := (weightFl_near hs.rnd c (ho.W_nonneg hs.rnd)).2
    obtain ⟨a1, a2⟩ := abs_le.mp h1
    have hc0 : (0 : ℝ) < 2 / 10 ^ 25 := by positivity
    split_ifs with h2
    · rw [abs_le]; constructor <;> linarith
    · have h3 : s.weight fl c ≤ fl (1 / 10 ^ 25) := not_lt.mp fun h' => h2 ⟨h', rfl⟩
      have h4 : 0 ≤ ∏ a, N P.deg ((p.x a - nodePosOf g (s.node c) a) / P.dx) := Finset.prod_nonneg fun a _ => N_nonneg _ _
      rw [abs_le]; constructor <;> linarith
  · push Not at hex
    rw [Finset.sum_eq_zero fun c _ => if_neg fun h' => hex c (flatIndex_inj (ho.node_lt c) hi h'.2), zero_sub, abs_neg,
      abs_of_nonneg (Finset.prod_nonneg fun a _ => N_nonneg _ _)]
    have hout : ∃ a, i a < s.base a ∨ s.base a + 3 < i a := by
      by_contra hc
      push Not at hc
      refine hex (fun a => ⟨i a - s.base a, by have := hc a; omega⟩) ?_
      funext a
      have := hc a
      simp only [StFl.node]; omega
    obtain ⟨a, ha⟩ := hout
    have h1 := ho.far a (i a) (hi a) ha
    have h2 : N P.deg ((p.x a - nodePosOf g i a) / P.dx) ≤ e := by
      refine N_far hs.e0 ?_
      rw [abs_div, abs_of_pos hs.dx, le_div_iff₀ hs.dx, nodePosOf, List.getD_eq_getElem?_getD,
        List.getElem?_eq_getElem (hi a), Option.getD_some]
      exact h1
    rw [← Finset.mul_prod_erase Finset.univ _ (Finset.mem_univ a)]
    have h3 : ∏ b ∈ Finset.univ.erase a, N P.deg ((p.x b - nodePosOf g i b) / P.dx) ≤ 1 :=
      Finset.prod_le_one (fun b _ => N_nonneg _ _) fun b _ => N_le_one _ _
    have h4 : 0 ≤ ∏ b ∈ Finset.univ.erase a, N P.deg ((p.x b - nodePosOf g i b) / P.dx) :=
      Finset.prod_nonneg fun b _ => N_nonneg _ _
    have h5 := mul_le_mul h2 h3 h4 hs.e0
    have hc0 : (0 : ℝ) < 2 / 10 ^ 25 := by positivity
    linarith

lemma sum_flatMap' {α β : Type*} (f : β → ℝ) (hs : α → List β) (L : List α) :
    ((L.flatMap hs).map f).sum = (L.map fun q => ((hs q).map f).sum).sum := by
  induction L with
  | nil => rfl
  | cons q L ih => rw [List.flatMap_cons, List.map_append, List.sum_append, ih, List.map_cons, List.sum_cons]

lemma wsum_eq (hs : Setting u fl P e g ps T) (l : ℕ) :
    hs.wsum l = (ps.map fun p => ((hits fl g.size l (p, stOf fl P.deg P.dx g p.x)).map fun h => h.w).sum).sum := by
  rw [Setting.wsum, allHits, sum_flatMap', withSt, List.map_map]
  rfl

lemma list_sum_close {α : Type*} {f h : α → ℝ} {δ : ℝ} : ∀ {L : List α}, (∀ p ∈ L, |f p - h p| ≤ δ) →
    |(L.map f).sum - (L.map h).sum| ≤ L.length * δ
  | [], _ => by simp
  | p :: L, hp => by
    have h1 := hp p List.mem_cons_self
    have h2 := list_sum_close (L := L) fun q hq => hp q (List.mem_cons_of_mem _ hq)
    simp only [List.map_cons, List.sum_cons, List.length_cons]
    push_cast
    have e1 : f p + (L.map f).sum - (h p + (L.map h).sum) = (f p - h p) + ((L.map f).sum - (L.map h).sum) := by ring
    rw [e1]
    exact (abs_add_le _ _).trans (by linarith)

/-- **C100** With rounding, the mass of a node is the textbook sum of the weights of all particles at the node, up to
rounding errors and the cut-off: `mp` times the number of particles times `e + 120 u + 2e-25 + 4 K u`. -/
theorem C100_mass (hs : Setting u fl P e g ps T) (hmp : 0 ≤ P.particleMass) (hts : ts.flatten.Perm ps)
    (hT : ts.length ≤ T) :
    ∃ G, P2GFl fl P g ts = some G ∧ ∀ i : Fin d → ℕ, (∀ a, i a < (g a).length) →
      |(G (flatIndex g.size i)).mass - P.particleMass * (ps.map fun p => ∏ a, N P.deg ((p.x a - (g a).getD (i a) 0) / P.dx)).sum| ≤
        P.particleMass * ps.length * (e + 120 * u + 2 / 10 ^ 25 + 4 * ((2 * ps.length + T + 2 : ℕ) * u)) := by
  refine ⟨_, hs.p2g_eq hts hT, fun i hi => ?_⟩
  have h1 := hs.mass_err hts hT hmp (flatIndex g.size i)
  have h2 : |hs.wsum (flatIndex g.size i) - (ps.map fun p => ∏ a, N P.deg ((p.x a - nodePosOf g i a) / P.dx)).sum| ≤
      ps.length * (e + 120 * u + 2 / 10 ^ 25) := by
    rw [wsum_eq]; exact list_sum_close fun p hp => one_hit hs hp hi
  change |fl _ - P.particleMass * (ps.map fun p => ∏ a, N P.deg ((p.x a - nodePosOf g i a) / P.dx)).sum| ≤ _
  have h3 : (ps.map fun p => ∏ a, N P.deg ((p.x a - nodePosOf g i a) / P.dx)).sum ≤ ps.length * 1 := by
    have := sum_le_mul (L := ps) (f := fun p => ∏ a, N P.deg ((p.x a - nodePosOf g i a) / P.dx)) (w := fun _ => 1) (M := 1)
      (fun p _ => Finset.prod_le_one (fun b _ => N_nonneg _ _) fun b _ => N_le_one _ _)
      (fun _ _ => zero_le_one)
    simpa using this
  have hu := hs.rnd.nonneg
  have hus := hs.rnd.small
  have he := hs.e1
  have hK0 : 0 ≤ ((2 * ps.length + T + 2 : ℕ) : ℝ) * u := mul_nonneg (Nat.cast_nonneg _) hu
  set K := ((2 * ps.length + T + 2 : ℕ) : ℝ) * u
  set S := hs.wsum (flatIndex g.size i)
  set Q := (ps.map fun p => ∏ a, N P.deg ((p.x a - nodePosOf g i a) / P.dx)).sum
  set n := (ps.length : ℝ)
  set mp := P.particleMass
  have hn : 0 ≤ n := Nat.cast_nonneg _
  obtain ⟨b1, b2⟩ := abs_le.mp h2
  have hc : (2 : ℝ) / 10 ^ 25 ≤ 1 / 10 := by norm_num
  have hS2 : S ≤ n * 2 := by nlinarith
  have h4 : 2 * K * (S * mp) ≤ 2 * K * (n * 2 * mp) :=
    mul_le_mul_of_nonneg_left (mul_le_mul_of_nonneg_right hS2 hmp) (by linarith)
  have h5 := mul_le_mul_of_nonneg_right b1 hmp
  have h6 := mul_le_mul_of_nonneg_right b2 hmp
  obtain ⟨a1, a2⟩ := abs_le.mp (h1.trans h4)
  rw [abs_le]
  constructor <;> linarith

lemma sum_list_comm {α : Type*} (L : List α) (s : Finset ℕ) (f : α → ℕ → ℝ) :
    ∑ l ∈ s, (L.map fun p => f p l).sum = (L.map fun p => ∑ l ∈ s, f p l).sum := by
  induction L with
  | nil => simp
  | cons p L ih => simp only [List.map_cons, List.sum_cons, Finset.sum_add_distrib, ih]

lemma total_hit (hs : Setting u fl P e g ps T) {p : Particle d ℝ} (hp : p ∈ ps) :
    |∑ l ∈ Finset.range (gridNodes g.size), ((hits fl g.size l (p, stOf fl P.deg P.dx g p.x)).map fun h => h.w).sum - 1| ≤
      16 * e + 420 * u + 128 / 10 ^ 25 := by
  classical
  have hu := hs.rnd.nonneg
  have hus := hs.rnd.small
  have ho := hs.stOk hp
  have hcut : fl (1 / 10 ^ 25) ≤ 2 / 10 ^ 25 := by
    have := hs.rnd.le (x := 1 / 10 ^ 25) (by positivity)
    have h2 : u * (1 / 10 ^ 25) ≤ 1 * (1 / 10 ^ 25) := mul_le_mul_of_nonneg_right (by linarith) (by positivity)
    linarith
  have h1 := ho.sum_weight hs.rnd hs.dim hs.e0 hs.e1
  set s := stOf fl P.deg P.dx g p.x
  have h2 : ∑ l ∈ Finset.range (gridNodes g.size), ((hits fl g.size l (p, s)).map fun h => h.w).sum =
      ∑ c, if fl (1 / 10 ^ 25) < s.weight fl c then s.weight fl c else 0 := by
    simp only [hits_sum]
    rw [Finset.sum_comm]
    refine Finset.sum_congr rfl fun c _ => ?_
    rw [Finset.sum_eq_single (flatIndex g.size (s.node c)) (fun l _ hne => if_neg fun h' => hne h'.2.symm)
      (fun hc => absurd (Finset.mem_range.mpr (flatIndex_lt (ho.node_lt c))) hc)]
    simp
  rw [h2]
  have h3 : |∑ c, (if fl (1 / 10 ^ 25) < s.weight fl c then s.weight fl c else 0) - ∑ c, s.weight fl c| ≤ 128 / 10 ^ 25 := by
    rw [← Finset.sum_sub_distrib]
    refine (Finset.abs_sum_le_sum_abs _ _).trans ?_
    have h4 : ∀ c, |(if fl (1 / 10 ^ 25) < s.weight fl c then s.weight fl c else 0) - s.weight fl c| ≤ 2 / 10 ^ 25 := by
      intro c
      have hw0 := (weightFl_near hs.rnd c (ho.W_nonneg hs.rnd)).2
      split_ifs with hc
      · rw [sub_self, abs_zero]; positivity
      · rw [zero_sub, abs_neg, abs_of_nonneg hw0]; exact (not_lt.mp hc).trans hcut
    have h5 := Finset.sum_le_sum fun c (_ : c ∈ (Finset.univ : Finset (Fin d → Fin 4))) => h4 c
    refine h5.trans ?_
    rw [Finset.sum_const, Finset.card_univ, Fintype.card_fun, Fintype.card_fin, Fintype.card_fin, nsmul_eq_mul]
    have h6 : (((4 ^ d : ℕ)) : ℝ) ≤ 64 := by
      have : 4 ^ d ≤ 4 ^ 3 := Nat.pow_le_pow_right (by norm_num) hs.dim
      exact_mod_cast this
    have := mul_le_mul_of_nonneg_right h6 (by positivity : (0 : ℝ) ≤ 2 / 10 ^ 25)
    linarith
  obtain ⟨a1, a2⟩ := abs_le.mp h1
  obtain ⟨b1, b2⟩ := abs_le.mp h3
  rw [abs_le]
  constructor <;> linarith

/-- **C100** With rounding, the masses of all nodes sum to the mass of all particles, up to rounding errors and the
cut-off. -/
theorem C100_total_mass (hs : Setting u fl P e g ps T) (hmp : 0 ≤ P.particleMass) (hts : ts.flatten.Perm ps)
    (hT : ts.length ≤ T) :
    ∃ G, P2GFl fl P g ts = some G ∧
      |∑ l ∈ Finset.range (gridNodes g.size), (G l).mass - P.particleMass * ps.length| ≤
        P.particleMass * ps.length * (16 * e + 420 * u + 128 / 10 ^ 25 + 6 * ((2 * ps.length + T + 2 : ℕ) * u)) := by
  refine ⟨_, hs.p2g_eq hts hT, ?_⟩
  have h1 := fun l => hs.mass_err hts hT hmp l
  have hu := hs.rnd.nonneg
  have hus := hs.rnd.small
  have he := hs.e1
  have hK0 : 0 ≤ ((2 * ps.length + T + 2 : ℕ) : ℝ) * u := mul_nonneg (Nat.cast_nonneg _) hu
  have h2 : |∑ l ∈ Finset.range (gridNodes g.size), hs.wsum l - ps.length| ≤
      ps.length * (16 * e + 420 * u + 128 / 10 ^ 25) := by
    simp only [wsum_eq]
    rw [sum_list_comm]
    have := list_sum_close (L := ps) (h := fun _ => 1) fun p hp => total_hit hs hp
    simpa using this
  set K := ((2 * ps.length + T + 2 : ℕ) : ℝ) * u
  set n := (ps.length : ℝ)
  set mp := P.particleMass
  set W := ∑ l ∈ Finset.range (gridNodes g.size), hs.wsum l
  have hn : 0 ≤ n := Nat.cast_nonneg _
  have h3 : |∑ l ∈ Finset.range (gridNodes g.size),
      fl ((p2gAccumulateFl fl P g.size (ts.map (withSt fl P.deg P.dx g)) l).mass * mp) - W * mp| ≤ 2 * K * (W * mp) := by
    rw [Finset.sum_mul, Finset.mul_sum, ← Finset.sum_sub_distrib]
    exact (Finset.abs_sum_le_sum_abs _ _).trans (Finset.sum_le_sum fun l _ => h1 l)
  change |∑ l ∈ Finset.range (gridNodes g.size), fl _ - _| ≤ _
  obtain ⟨b1, b2⟩ := abs_le.mp h2
  have hc : (128 : ℝ) / 10 ^ 25 ≤ 1 / 10 := by norm_num
  have hW : W ≤ n * 3 := by nlinarith
  have h4 : 2 * K * (W * mp) ≤ 2 * K * (n * 3 * mp) :=
    mul_le_mul_of_nonneg_left (mul_le_mul_of_nonneg_right hW hmp) (by linarith)
  have h5 := mul_le_mul_of_nonneg_right b1 hmp
  have h6 := mul_le_mul_of_nonneg_right b2 hmp
  obtain ⟨a1, a2⟩ := abs_le.mp (h3.trans h4)
  rw [abs_le]
  constructor <;> linarith

/-! Interpolation -/

lemma allIdx_length (d : ℕ) : (allIdx d).length = 4 ^ d := by
  have := sum_allIdx (d := d) (fun _ => 1)
  simpa using this

/-- The loop of the interpolation. -/
lemma picFl_near (hs : Setting u fl P e g ps T) (v : ℕ → Fin d → ℝ) {p : Particle d ℝ} (hp : p ∈ ps) :
    ∃ w, picFl fl P g v p.x = some w ∧ ∀ a, Near u 65
      (∑ c, v (flatIndex g.size ((stOf fl P.deg P.dx g p.x).node c)) a * (stOf fl P.deg P.dx g p.x).weight fl c)
      (∑ c, |v (flatIndex g.size ((stOf fl P.deg P.dx g p.x).node c)) a| * (stOf fl P.deg P.dx g p.x).weight fl c) (w a) := by
  have ho := stOf_ok P.deg (hs.placed p hp)
  refine ⟨_, by rw [picFl, ho.2.1, Option.map_some], fun a => ?_⟩
  have hok := ho.2.2
  set s := stOf fl P.deg P.dx g p.x
  have := foldl_near (u := u) (fun acc c => fl (acc + fl (v (flatIndex g.size (s.node c)) a * s.weight fl c))) id
    (fun c => v (flatIndex g.size (s.node c)) a * s.weight fl c)
    (fun c => |v (flatIndex g.size (s.node c)) a| * s.weight fl c) 1 (allIdx d) (k0 := 1)
    (fun c _ k g' x y hk hn => by
      have hw0 := (weightFl_near hs.rnd c (hok.W_nonneg hs.rnd)).2
      have ht := Near.term hs.rnd (v (flatIndex g.size (s.node c)) a) (s.weight fl c)
      rw [abs_of_nonneg hw0] at ht
      exact hn.add hs.rnd (ht.mono hs.rnd.nonneg hk)) (g := 0) (k := 1) le_rfl (zero_near 1)
  rw [zero_add, zero_add, sum_allIdx, sum_allIdx, allIdx_length] at this
  refine this.mono hs.rnd.nonneg ?_
  have : 4 ^ d ≤ 4 ^ 3 := Nat.pow_le_pow_right (by norm_num) hs.dim
  omega

/-- **C100** With rounding, the velocity interpolated to a particle is in the range of the velocities of the nodes, up to
rounding errors. -/
theorem C100_interpolation (hs : Setting u fl P e g ps T) (v : ℕ → Fin d → ℝ) {a : Fin d} {lo hi M : ℝ}
    (hlo : -M ≤ lo) (hhi : hi ≤ M) (hv : ∀ l < gridNodes g.size, lo ≤ v l a ∧ v l a ≤ hi) {p : Particle d ℝ} (hp : p ∈ ps) :
    ∃ w, picFl fl P g v p.x = some w ∧ lo - (16 * e + 900 * u) * M ≤ w a ∧ w a ≤ hi + (16 * e + 900 * u) * M := by
  obtain ⟨w, hw, hn⟩ := picFl_near hs v hp
  refine ⟨w, hw, ?_⟩
  have hu := hs.rnd.nonneg
  have hus := hs.rnd.small
  have he := hs.e1
  have he0 := hs.e0
  have ho := hs.stOk hp
  have h1 := (hn a).simple hu (by push_cast; linarith)
  have h2 := ho.sum_weight hs.rnd hs.dim hs.e0 hs.e1
  set s := stOf fl P.deg P.dx g p.x
  have hw0 : ∀ c, 0 ≤ s.weight fl c := fun c => (weightFl_near hs.rnd c (ho.W_nonneg hs.rnd)).2
  have hvc : ∀ c, lo ≤ v (flatIndex g.size (s.node c)) a ∧ v (flatIndex g.size (s.node c)) a ≤ hi := fun c =>
    hv _ (flatIndex_lt (ho.node_lt c))
  have hlh : lo ≤ hi := (hvc fun _ => 0).1.trans (hvc fun _ => 0).2
  have hM0 : 0 ≤ M := by linarith
  have b1 : ∑ c, v (flatIndex g.size (s.node c)) a * s.weight fl c ≤ hi * ∑ c, s.weight fl c := by
    rw [Finset.mul_sum]
    exact Finset.sum_le_sum fun c _ => mul_le_mul_of_nonneg_right (hvc c).2 (hw0 c)
  have b2 : lo * ∑ c, s.weight fl c ≤ ∑ c, v (flatIndex g.size (s.node c)) a * s.weight fl c := by
    rw [Finset.mul_sum]
    exact Finset.sum_le_sum fun c _ => mul_le_mul_of_nonneg_right (hvc c).1 (hw0 c)
  have b3 : ∑ c, |v (flatIndex g.size (s.node c)) a| * s.weight fl c ≤ M * ∑ c, s.weight fl c := by
    rw [Finset.mul_sum]
    exact Finset.sum_le_sum fun c _ => mul_le_mul_of_nonneg_right
      (abs_le.mpr ⟨by linarith [(hvc c).1], by linarith [(hvc c).2]⟩) (hw0 c)
  set W := ∑ c, s.weight fl c
  obtain ⟨c1, c2⟩ := abs_le.mp h2
  have hθ : 16 * e + 420 * u ≤ 11 / 10 := by linarith
  have b4 : M * W ≤ M * (21 / 10) := mul_le_mul_of_nonneg_left (by linarith) hM0
  have b5 := mul_le_mul_of_nonneg_left (b3.trans b4) (by positivity : 0 ≤ 2 * (((65 : ℕ) : ℝ) * u))
  obtain ⟨d1, d2⟩ := abs_le.mp (h1.trans b5)
  have habs : |hi| ≤ M := abs_le.mpr ⟨by linarith, hhi⟩
  have habs' : |lo| ≤ M := abs_le.mpr ⟨hlo, by linarith⟩
  have b6 : |hi * W - hi| ≤ M * (16 * e + 420 * u) := by
    rw [show hi * W - hi = hi * (W - 1) by ring, abs_mul]
    exact mul_le_mul habs h2 (abs_nonneg _) hM0
  have b7 : |lo * W - lo| ≤ M * (16 * e + 420 * u) := by
    rw [show lo * W - lo = lo * (W - 1) by ring, abs_mul]
    exact mul_le_mul habs' h2 (abs_nonneg _) hM0
  obtain ⟨e1, e2⟩ := abs_le.mp b6
  obtain ⟨f1, f2⟩ := abs_le.mp b7
  push_cast at d1 d2
  have hMu : 0 ≤ M * u := by positivity
  constructor <;> linarith

lemma apicFl_zero (hr : Rounding u fl) (dinv : ℝ) {p : Particle d ℝ} (h : p.Bmat = 0) (X : Fin d → ℝ) (a : Fin d) :
    apicFl fl dinv p X a = 0 := by
  have hf : ∀ L : List ℝ, (∀ x ∈ L, x = 0) → L.foldl (fun p w => fl (p + w)) 0 = 0 := by
    intro L hL
    induction L with
    | nil => rfl
    | cons x L ih =>
      rw [List.foldl_cons, hL x List.mem_cons_self, add_zero, hr.zero]
      exact ih fun y hy => hL y (List.mem_cons_of_mem _ hy)
  have hs : sumFl fl (List.ofFn fun b => fl (p.Bmat a b * fl (X b - p.x b))) = 0 := by
    have hz : ∀ x ∈ (List.ofFn fun b => fl (p.Bmat a b * fl (X b - p.x b))), x = 0 := by
      intro x hx
      rw [List.mem_ofFn] at hx
      obtain ⟨b, rfl⟩ := hx
      rw [h, Matrix.zero_apply, zero_mul, hr.zero]
    generalize (List.ofFn fun b => fl (p.Bmat a b * fl (X b - p.x b))) = L at hz
    cases L with
    | nil => rfl
    | cons x L =>
      rw [sumFl, hz x List.mem_cons_self]
      exact hf L fun y hy => hz y (List.mem_cons_of_mem _ hy)
  rw [apicFl, hs, zero_mul, hr.zero]

/-- **C100** With rounding, a common velocity `V` of all particles (without an affine part) survives the transfer to the grid
and back, up to rounding errors relative to `V`, also next to nodes with the smallest masses. -/
theorem C100_translation (hs : Setting u fl P e g ps T) (hts : ts.flatten.Perm ps) (hT : ts.length ≤ T)
    (hmp : 0 < P.particleMass) {V : Fin d → ℝ} (hV : ∀ p ∈ ps, p.v = V) (hB : ∀ p ∈ ps, P.flipRatio < 0 → p.Bmat = 0) :
    ∃ G, P2GFl fl P g ts = some G ∧ ∀ p ∈ ps, ∃ w, picFl fl P g (fun l => (G l).v) p.x = some w ∧
      ∀ a, |w a - V a| ≤ (16 * e + 1000 * u + 128 / 10 ^ 25 + 13 * ((2 * ps.length + T + 2 : ℕ) * u)) * |V a| := by
  refine ⟨_, hs.p2g_eq hts hT, fun p hp => ?_⟩
  obtain ⟨w, hw, hn⟩ := picFl_near hs (fun l => (p2gFinishFl fl P (p2gAccumulateFl fl P g.size
    (ts.map (withSt fl P.deg P.dx g))) l).v) hp
  refine ⟨w, hw, fun a => ?_⟩
  have hu := hs.rnd.nonneg
  have hus := hs.rnd.small
  have he := hs.e1
  have he0 := hs.e0
  have ho := hs.stOk hp
  have h1 := (hn a).simple hu (by push_cast; linarith)
  have h2 := ho.sum_weight hs.rnd hs.dim hs.e0 hs.e1
  have hfew := hs.few
  have hap : ∀ q ∈ ps, ∀ X, (if P.flipRatio < 0 then apicFl fl P.apicDinverse q X a else 0) = 0 := by
    intro q hq X
    split_ifs with hc
    · exact apicFl_zero hs.rnd _ (hB q hq hc) X a
    · rfl
  have hSB : SpeedBoundFl fl P ps a |V a| := by
    intro q hq X _
    have := hap q hq X
    split_ifs with hc
    · rw [if_pos hc] at this; rw [this, hV q hq]; simp
    · rw [hV q hq]; simp
  have hBe : BetweenFl fl P ps a (V a) (V a) := by
    intro q hq X _
    rw [hap q hq X, hV q hq]; simp
  obtain ⟨G, hG, hrange⟩ := velocityFl hs hts hT hmp hSB hBe
  rw [hs.p2g_eq hts hT] at hG
  injection hG with hG
  set G' := p2gFinishFl fl P (p2gAccumulateFl fl P g.size (ts.map (withSt fl P.deg P.dx g))) with hG'
  rw [← hG] at hrange
  set s := stOf fl P.deg P.dx g p.x with hsdef
  have hw0 : ∀ c, 0 ≤ s.weight fl c := fun c => (weightFl_near hs.rnd c (ho.W_nonneg hs.rnd)).2
  set K := ((2 * ps.length + T + 2 : ℕ) : ℝ) * u with hK
  have hK0 : 0 ≤ K := mul_nonneg (Nat.cast_nonneg _) hu
  have hVa := abs_nonneg (V a)
  have hcut : fl (1 / 10 ^ 25) ≤ 2 / 10 ^ 25 := by
    have := hs.rnd.le (x := 1 / 10 ^ 25) (by positivity)
    have h2 : u * (1 / 10 ^ 25) ≤ 1 * (1 / 10 ^ 25) := mul_le_mul_of_nonneg_right (by linarith) (by positivity)
    linarith
  -- a visited node
  have hnode : ∀ c, |(G' (flatIndex g.size (s.node c))).v a - V a| * s.weight fl c ≤
      6 * K * |V a| * s.weight fl c + |V a| * (2 / 10 ^ 25) := by
    intro c
    by_cases hm : 0 < (G' (flatIndex g.size (s.node c))).mass
    · have h3 : |(G' (flatIndex g.size (s.node c))).v a - V a| ≤ 6 * K * |V a| := by
        have := (hrange (flatIndex g.size (s.node c))).1 hm
        rw [abs_le]; constructor <;> linarith [this.1, this.2]
      have h4 := mul_le_mul_of_nonneg_right h3 (hw0 c)
      have : 0 ≤ |V a| * (2 / 10 ^ 25) := by positivity
      linarith
    · rw [(hrange _).2 (not_lt.mp hm), zero_sub, abs_neg]
      have hsmall : s.weight fl c ≤ 2 / 10 ^ 25 := by
        refine le_trans (not_lt.mp fun hc => hm ((hs.mass_pos hts hT hmp _).mpr ?_)) hcut
        have hmem : (⟨p, s.weight fl c, s.pos c⟩ : Hit d) ∈ allHits fl P g ps (flatIndex g.size (s.node c)) := by
          classical
          rw [allHits, List.mem_flatMap]
          refine ⟨(p, s), List.mem_map.mpr ⟨p, hp, rfl⟩, ?_⟩
          rw [hits, List.mem_map]
          refine ⟨c, ?_, rfl⟩
          rw [List.mem_filter]
          refine ⟨?_, by simpa using hc⟩
          by_contra hni
          have h5 := sum_allIdx (d := d) (fun x => if x = c then (1 : ℝ) else 0)
          have h7 : ((allIdx d).map fun x => if x = c then (1 : ℝ) else 0).sum = 0 := by
            refine List.sum_eq_zero fun y hy => ?_
            obtain ⟨x, hx, rfl⟩ := List.mem_map.mp hy
            have hxc : x ≠ c := fun hxc => hni (hxc ▸ hx)
            simp only [if_neg hxc]
          rw [h7, Finset.sum_ite_eq' Finset.univ c, if_pos (Finset.mem_univ c)] at h5
          exact absurd h5 (by norm_num)
        have h6 : s.weight fl c ≤ hs.wsum (flatIndex g.size (s.node c)) :=
          List.single_le_sum (fun x hx => by
            obtain ⟨h, hh, rfl⟩ := List.mem_map.mp hx; exact (hs.mem_allHits hh).2.1.le) _ (List.mem_map.mpr ⟨_, hmem, rfl⟩)
        exact lt_of_lt_of_le (lt_of_le_of_lt hs.cut_nonneg hc) h6
      have h4 := mul_le_mul_of_nonneg_left hsmall hVa
      have : 0 ≤ 6 * K * |V a| * s.weight fl c := mul_nonneg (by positivity) (hw0 c)
      linarith
  have hcard : ∑ c : Fin d → Fin 4, |V a| * (2 / 10 ^ 25) ≤ |V a| * (128 / 10 ^ 25) := by
    rw [Finset.sum_const, Finset.card_univ, Fintype.card_fun, Fintype.card_fin, Fintype.card_fin, nsmul_eq_mul]
    have h6 : (((4 ^ d : ℕ)) : ℝ) ≤ 64 := by
      have : 4 ^ d ≤ 4 ^ 3 := Nat.pow_le_pow_right (by norm_num) hs.dim
      exact_mod_cast this
    have := mul_le_mul_of_nonneg_right h6 (by positivity : (0 : ℝ) ≤ |V a| * (2 / 10 ^ 25))
    linarith
  set W := ∑ c, s.weight fl c with hWdef
  obtain ⟨c1, c2⟩ := abs_le.mp h2
  have hW : W ≤ 206 / 100 := by linarith
  have hWn : 0 ≤ W := Finset.sum_nonneg fun c _ => hw0 c
  have hKV : 0 ≤ K * |V a| := by positivity
  have hdist : ∑ c, |(G' (flatIndex g.size (s.node c))).v a - V a| * s.weight fl c ≤
      6 * K * |V a| * W + |V a| * (128 / 10 ^ 25) := by
    refine (Finset.sum_le_sum fun c _ => hnode c).trans ?_
    rw [Finset.sum_add_distrib, ← Finset.mul_sum]
    linarith
  have hD : 6 * K * |V a| * W ≤ 124 / 10 * (K * |V a|) := by
    have := mul_le_mul_of_nonneg_left hW hKV
    linarith
  -- the exact sum
  have hsum : |∑ c, (G' (flatIndex g.size (s.node c))).v a * s.weight fl c - V a * W| ≤
      124 / 10 * (K * |V a|) + |V a| * (128 / 10 ^ 25) := by
    rw [hWdef, Finset.mul_sum, ← Finset.sum_sub_distrib]
    refine (Finset.abs_sum_le_sum_abs _ _).trans (le_trans (le_of_eq ?_) (hdist.trans (by linarith)))
    refine Finset.sum_congr rfl fun c _ => ?_
    rw [← sub_mul, abs_mul, abs_of_nonneg (hw0 c)]
  have habs : ∑ c, |(G' (flatIndex g.size (s.node c))).v a| * s.weight fl c ≤ 4 * |V a| := by
    have : ∀ c, |(G' (flatIndex g.size (s.node c))).v a| * s.weight fl c ≤
        |(G' (flatIndex g.size (s.node c))).v a - V a| * s.weight fl c + |V a| * s.weight fl c := by
      intro c
      rw [← add_mul]
      refine mul_le_mul_of_nonneg_right ?_ (hw0 c)
      simpa using abs_add_le ((G' (flatIndex g.size (s.node c))).v a - V a) (V a)
    refine (Finset.sum_le_sum fun c _ => this c).trans ?_
    rw [Finset.sum_add_distrib, ← Finset.mul_sum]
    have h7 : K * |V a| ≤ 1 / 10 * |V a| := mul_le_mul_of_nonneg_right hfew hVa
    have h8 : |V a| * W ≤ |V a| * (206 / 100) := mul_le_mul_of_nonneg_left hW hVa
    have h9 : |V a| * (128 / 10 ^ 25) ≤ |V a| * (1 / 10) := mul_le_mul_of_nonneg_left (by norm_num) hVa
    linarith
  have b5 := mul_le_mul_of_nonneg_left habs (by positivity : 0 ≤ 2 * (((65 : ℕ) : ℝ) * u))
  obtain ⟨d1, d2⟩ := abs_le.mp (h1.trans b5)
  obtain ⟨s1, s2⟩ := abs_le.mp hsum
  have b6 : |V a * W - V a| ≤ |V a| * (16 * e + 420 * u) := by
    rw [show V a * W - V a = V a * (W - 1) by ring, abs_mul]
    exact mul_le_mul_of_nonneg_left h2 hVa
  obtain ⟨e1, e2⟩ := abs_le.mp b6
  push_cast at d1 d2
  have hVu : 0 ≤ |V a| * u := by positivity
  rw [abs_le]
  constructor <;> linarith

end main

/-! ### A concrete case -/

namespace RoundEx

/-- A particle of the example. -/
noncomputable def rp (x y vx vy m : ℝ) : Particle 2 ℝ := { (Particle.init : Particle 2 ℝ) with x := ![x, y], v := ![vx, vy], muI := m }

/-- Three particles in a 2D box, moving differently. -/
noncomputable def rps : List (Particle 2 ℝ) :=
  [rp 0 (3 / 10) 1 0 (1 / 2), rp (3 / 10) 1 2 (-1) (2 / 5), rp 1 0 (3 / 2) 1 (3 / 5)]

/-- Three particles moving with the same velocity. -/
noncomputable def rqs : List (Particle 2 ℝ) := [rp 0 (3 / 10) 1 2 0, rp (3 / 10) 1 1 2 0, rp 1 0 1 2 0]

/-- PIC-like transfers (no affine part), quadratic splines, cells of width 1/10. -/
noncomputable def rP : TransferParams ℝ := mkTransferParams .two (1 / 10) 1 true (1 / 1000) 1

/-- A particle is at 0, 3/10 and 1 in each direction. -/
def rAt (ps : List (Particle 2 ℝ)) : Prop :=
  ps.length = 3 ∧ ∀ p ∈ ps, ∀ a, p.x a ∈ [0, 3 / 10, (1 : ℝ)]

/-- The grid that the first step builds around them, computed with 52 binary digits, meets the hypotheses of C100, for two
threads. -/
lemma r_setting : ∃ nodes ai, axisInitFl (trunc 52) (1 / 10) 2 none [0, 3 / 10, 1] = some ai ∧
    axisInitNodesFl (trunc 52) 80 (1 / 10) ai = some nodes ∧
    ∀ ps, rAt ps → Setting (1 / 2 ^ 52) (trunc 52) rP (40 * (1 / 2 ^ 52 * (2 / (1 / 10)) ^ 2)) (fun _ => nodes) ps 2 := by
  have hr : Rounding (1 / 2 ^ 52) (trunc 52) := (trunc_floats (by norm_num)).toRounding
  obtain ⟨ai, nodes, h1, h2, h3⟩ := C99_first_step (dx := 1 / 10) (B := 2) (xs := [0, 3 / 10, 1]) hr (by norm_num) (by norm_num)
    cells_small none (by simp) (by intro y hy; simp at hy; rcases hy with rfl | rfl | rfl <;> norm_num)
  refine ⟨nodes, ai, h1, h2 80 (by norm_num), fun ps hp => ⟨hr, by norm_num [rP, mkTransferParams],
    by norm_num, by norm_num, by norm_num, fun p hpp a => h3 _ (hp.2 p hpp a), by rw [hp.1]; norm_num⟩⟩

lemma rps_at : rAt rps := by
  refine ⟨rfl, fun p hp a => ?_⟩
  simp only [rps, List.mem_cons, List.not_mem_nil, or_false] at hp
  rcases hp with rfl | rfl | rfl <;> fin_cases a <;> simp [rp]

lemma rqs_at : rAt rqs := by
  refine ⟨rfl, fun p hp a => ?_⟩
  simp only [rqs, List.mem_cons, List.not_mem_nil, or_false] at hp
  rcases hp with rfl | rfl | rfl <;> fin_cases a <;> simp [rp]

lemma rps_perm : List.Perm [[rp 1 0 (3 / 2) 1 (3 / 5)], [rp 0 (3 / 10) 1 0 (1 / 2), rp (3 / 10) 1 2 (-1) (2 / 5)]].flatten rps := by
  simp only [rps, List.flatten_cons, List.flatten_nil, List.append_nil, List.cons_append, List.nil_append]
  exact (List.Perm.swap _ _ _).trans (List.Perm.cons _ (List.Perm.swap _ _ _))

lemma r_no_apic : ¬ (rP.flipRatio < 0) := by norm_num [rP, mkTransferParams]

lemma r_speed : SpeedBound rP rps 0 2 := by
  intro p hp X _
  rw [if_neg r_no_apic]
  simp only [rps, List.mem_cons, List.not_mem_nil, or_false] at hp
  rcases hp with rfl | rfl | rfl <;> simp [rp] <;> norm_num [abs_le]

lemma r_between : Between rP rps 0 1 2 := by
  intro p hp X _
  rw [if_neg r_no_apic]
  simp only [rps, List.mem_cons, List.not_mem_nil, or_false] at hp
  rcases hp with rfl | rfl | rfl <;> simp [rp] <;> norm_num

/-- All theorems of C100 apply to these particles: two threads, one of them with the particles in another order. -/
example : ∃ nodes ai, axisInitFl (trunc 52) (1 / 10) 2 none [0, 3 / 10, 1] = some ai ∧
    axisInitNodesFl (trunc 52) 80 (1 / 10) ai = some nodes ∧
    ∃ G, P2GFl (trunc 52) rP (fun _ : Fin 2 => nodes)
      [[rp 1 0 (3 / 2) 1 (3 / 5)], [rp 0 (3 / 10) 1 0 (1 / 2), rp (3 / 10) 1 2 (-1) (2 / 5)]] = some G ∧
      ∀ l, (0 < (G l).mass → 1 - 10 * ((2 * rps.length + 2 + 2 : ℕ) * (1 / 2 ^ 52)) * 2 ≤ (G l).v 0 ∧
        (G l).v 0 ≤ 2 + 10 * ((2 * rps.length + 2 + 2 : ℕ) * (1 / 2 ^ 52)) * 2) ∧ ((G l).mass ≤ 0 → (G l).v 0 = 0) := by
  obtain ⟨nodes, ai, h1, h2, hs⟩ := r_setting
  exact ⟨nodes, ai, h1, h2, C100_velocity (hs rps rps_at) rps_perm (by simp) (by norm_num [rP, mkTransferParams]) r_speed r_between⟩

example : ∃ nodes : List ℝ, ∃ G, P2GFl (trunc 52) rP (fun _ : Fin 2 => nodes) [rqs] = some G ∧ ∀ p ∈ rqs,
    ∃ w, picFl (trunc 52) rP (fun _ : Fin 2 => nodes) (fun l => (G l).v) p.x = some w ∧ ∀ a, |w a - ![1, 2] a| ≤
      (16 * (40 * (1 / 2 ^ 52 * (2 / (1 / 10)) ^ 2)) + 1000 * (1 / 2 ^ 52) + 128 / 10 ^ 25 +
        13 * ((2 * rqs.length + 2 + 2 : ℕ) * (1 / 2 ^ 52))) * |(![1, 2] : Fin 2 → ℝ) a| := by
  obtain ⟨nodes, ai, h1, h2, hs⟩ := r_setting
  refine ⟨nodes, C100_translation (hs rqs rqs_at) (by simp) (by simp) (by norm_num [rP, mkTransferParams]) ?_ fun p _ h => absurd h r_no_apic⟩
  intro p hp
  simp only [rqs, List.mem_cons, List.not_mem_nil, or_false] at hp
  rcases hp with rfl | rfl | rfl <;> rfl

/-- The relative error is below 10⁻¹⁰. -/
example : 16 * (40 * (1 / 2 ^ 52 * (2 / (1 / 10)) ^ 2)) + 1000 * (1 / 2 ^ 52) + 128 / 10 ^ 25 +
    13 * ((2 * 3 + 2 + 2 : ℕ) * (1 / 2 ^ 52)) ≤ (1 : ℝ) / 10 ^ 10 := by norm_num

end RoundEx

end Verif.Props
