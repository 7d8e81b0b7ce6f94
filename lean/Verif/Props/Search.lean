import Verif.Lemmas.CamClay

set_option linter.unusedSectionVars false
set_option linter.unusedSimpArgs false
set_option linter.unusedVariables false

/-!
# C52: the limited search ends and says what it found

The search starts from the plastic volumetric strain `epv` and a Newton step `delta`. Trial number `k` of the
forward sweep is `epv - delta/2^k`, of the backward sweep `epv + delta/2^k`.
-/

namespace Verif.Props
open Verif

/-- Trial strain `k`, backward or forward. -/
noncomputable def candidate (epv delta : ℝ) (back : Bool) (k : ℕ) : ℝ :=
  epv - (if back then -1 else 1) * delta / 2 ^ k

section
variable (law : ℝ → ℝ) (epvT K pT beta : ℝ) (right : ℤ)

/-- Pressure at the trial strain `e`. -/
def pressureAt (e : ℝ) : ℝ := K * (e - epvT) + pT

/-- Centre of the ellipse at the trial strain `e`. -/
noncomputable def centreAt (e : ℝ) : ℝ := (1 - beta) * law e / 2

/-- The trial pressure is at the centre up to the tolerance. -/
def NearCentre (e : ℝ) : Prop := |pressureAt epvT K pT e - centreAt law beta e| ≤ 1e-5

/-- The trial pressure has changed the side of the centre. -/
def CrossedCentre (e : ℝ) : Prop :=
  right = 1 ∧ (pressureAt epvT K pT e < centreAt law beta e ∨ pT < centreAt law beta e) ∨
  right = 0 ∧ (centreAt law beta e < pressureAt epvT K pT e ∨ centreAt law beta e < pT)

/-- The plastic multiplier of the trial strain, `(pT - p) / (2 K M² (p - centre))` with
`pT - p = K (epvT - e)`, is not negative. -/
def NonnegMultiplier (e : ℝ) : Prop :=
  0 ≤ (epvT - e) * (pressureAt epvT K pT e - centreAt law beta e)

/-- The trial is neither accepted nor does it end the search. -/
def Rejected (e : ℝ) : Prop :=
  ¬ NearCentre law epvT K pT beta e ∧ ¬ CrossedCentre law epvT K pT beta right e ∧
    ¬ NonnegMultiplier law epvT K pT beta e

/-- What the search may report. -/
def SearchOk (epv delta : ℝ) : SearchResult → Prop
  | .failed => ∀ back k, k < 32 → Rejected law epvT K pT beta right (candidate epv delta back k)
  | .found e r => ∃ back k, k < 32 ∧
      (∀ j, j < k → Rejected law epvT K pT beta right (candidate epv delta back j)) ∧
      (back = true → ∀ j, j < 32 → Rejected law epvT K pT beta right (candidate epv delta false j)) ∧
      (e = candidate epv delta back k ∧ r = right ∧
          (NearCentre law epvT K pT beta e ∨
            ¬ CrossedCentre law epvT K pT beta right e ∧ NonnegMultiplier law epvT K pT beta e) ∨
        e = epv ∧ r = -1 ∧ CrossedCentre law epvT K pT beta right (candidate epv delta back k))
end

lemma sgn_iff {a b : ℝ} (hb : b ≠ 0) : (sgn a = sgn b ∨ sgn a = 0) ↔ 0 ≤ a * b := by
  rcases lt_trichotomy a 0 with ha | rfl | ha <;> rcases lt_or_gt_of_ne hb with hb | hb
  · have := mul_pos_of_neg_of_neg ha hb
    simp [sgn, ha, hb, ha.le, hb.le, not_lt.mpr ha.le, not_lt.mpr hb.le, this.le]
  · have := mul_neg_of_neg_of_pos ha hb
    simp [sgn, ha, hb, not_lt.mpr ha.le, not_lt.mpr hb.le, this]
    norm_num
    exact ha
  · simp [sgn]
  · simp [sgn]
  · have := mul_neg_of_pos_of_neg ha hb
    simp [sgn, ha, hb, not_lt.mpr ha.le, not_lt.mpr hb.le, this]
    norm_num
    exact hb
  · have := mul_pos ha hb
    simp [sgn, ha, hb, not_lt.mpr ha.le, not_lt.mpr hb.le, this.le]

lemma searchLoop_ok (law : ℝ → ℝ) (epv epvT delta K pT beta : ℝ) (right : ℤ) (fuel tries f : ℕ)
    (scale dl last : ℝ) (back : Bool) (ht : tries < 32) (hf : f = if back then 1 else 0)
    (hfuel : 32 - tries + (if back then 0 else 32) ≤ fuel)
    (hsc : scale = 1 / 2 ^ tries) (hdl : dl = (if back then -1 else 1) * delta)
    (h1 : ∀ j, j < tries → Rejected law epvT K pT beta right (candidate epv delta back j))
    (h2 : back = true → ∀ j, j < 32 → Rejected law epvT K pT beta right (candidate epv delta false j)) :
    ∃ res, searchLoop law epv epvT K pT beta right fuel tries scale dl f last = some res ∧
      SearchOk law epvT K pT beta right epv delta res := by
  induction fuel generalizing tries f scale dl last back with
  | zero => split_ifs at hfuel <;> omega
  | succ fuel ih =>
    rw [searchLoop, if_pos ht]
    have htest : epv - scale * dl = candidate epv delta back tries := by
      unfold candidate; rw [hsc, hdl]; ring
    simp only [htest]
    set e := candidate epv delta back tries with he
    have hmid : (law e - beta * law e) * 0.5 = centreAt law beta e := by unfold centreAt; ring
    have hpp : K * (e - epvT) + pT = pressureAt epvT K pT e := rfl
    have hval : 2 * pressureAt epvT K pT e + (beta - 1) * law e =
        2 * (pressureAt epvT K pT e - centreAt law beta e) := by unfold centreAt; ring
    rw [hpp, hmid, hval]
    split_ifs with c1 c2 c3 c4 c5
    · exact ⟨_, rfl, back, tries, ht, h1, h2, Or.inl ⟨rfl, rfl, Or.inl c1⟩⟩
    · exact ⟨_, rfl, back, tries, ht, h1, h2, Or.inr ⟨rfl, rfl, c2⟩⟩
    all_goals
      have hne : 2 * (pressureAt epvT K pT e - centreAt law beta e) ≠ 0 := by
        intro h0
        apply c1
        rw [show pressureAt epvT K pT e - centreAt law beta e = 0 by linarith, abs_zero]; norm_num
      have hsg : (sgn (epvT - e) = sgn (2 * (pressureAt epvT K pT e - centreAt law beta e)) ∨
          sgn (epvT - e) = 0) ↔ NonnegMultiplier law epvT K pT beta e := by
        rw [sgn_iff hne]
        unfold NonnegMultiplier
        constructor <;> intro h <;> linarith
    · exact ⟨_, rfl, back, tries, ht, h1, h2, Or.inl ⟨rfl, rfl, Or.inr ⟨c2, hsg.mp c3⟩⟩⟩
    all_goals
      have hrej : Rejected law epvT K pT beta right e := ⟨c1, c2, fun h => c3 (hsg.mpr h)⟩
      have hall : ∀ j, j < tries + 1 → Rejected law epvT K pT beta right (candidate epv delta back j) := by
        intro j hj
        rcases Nat.lt_succ_iff_lt_or_eq.mp hj with hj | rfl
        · exact h1 j hj
        · exact hrej
    · exact ih (tries + 1) f _ _ _ back (by omega) hf (by omega)
        (by rw [hsc, pow_succ]; norm_num; ring) hdl hall h2
    · have hback : back = true := by
        by_contra hb
        rw [Bool.not_eq_true] at hb
        rw [hb] at hf
        simp at hf; omega
      have ht32 : tries + 1 = 32 := by omega
      refine ⟨_, rfl, fun b k hk => ?_⟩
      cases b
      · exact h2 hback k hk
      · rw [hback] at hall; exact hall k (by omega)
    · have hback : back = false := by
        by_contra hb
        rw [Bool.not_eq_false] at hb
        rw [hb] at hf
        simp at hf; omega
      have ht32 : tries + 1 = 32 := by omega
      subst hback
      simp only [Bool.false_eq_true, if_false] at hf hfuel hdl
      exact ih 0 (f + 1) _ _ _ true (by norm_num) (by simp [hf]) (by simp; omega) (by norm_num)
        (by rw [hdl]; simp) (fun j hj => absurd hj (by omega)) (fun _ j hj => hall j (by omega))

/-- **C52** For every hardening law, state and step (also a negative one) the search makes at most 64 trials
and reports the first trial not rejected, the marker, or failure after all 64 trials were rejected. -/
theorem C52_search (law : ℝ → ℝ) (epv epvT delta K pT beta : ℝ) (right : ℤ) :
    ∃ res, limitedSearch law epv epvT delta K pT beta right 64 = some res ∧
      SearchOk law epvT K pT beta right epv delta res :=
  searchLoop_ok law epv epvT delta K pT beta right 64 0 0 1 delta 0 false (by norm_num) rfl (by norm_num)
    (by norm_num) (by simp) (fun j hj => absurd hj (by omega)) (fun h => absurd h (by simp))

/-- **C52** A larger budget changes nothing: the loop has ended by itself. -/
theorem C52_no_limit (law : ℝ → ℝ) (epv epvT delta K pT beta : ℝ) (right : ℤ) (n : ℕ) :
    limitedSearch law epv epvT delta K pT beta right (64 + n) =
      limitedSearch law epv epvT delta K pT beta right 64 := by
  have key : ∀ (fuel extra tries : ℕ) (scale dl : ℝ) (f : ℕ) (last : ℝ) (res : SearchResult),
      searchLoop law epv epvT K pT beta right fuel tries scale dl f last = some res →
      searchLoop law epv epvT K pT beta right (fuel + extra) tries scale dl f last = some res := by
    intro fuel
    induction fuel with
    | zero => intro _ _ _ _ _ _ _ h; simp [searchLoop] at h
    | succ fuel ih =>
      intro extra tries scale dl f last res h
      rw [show fuel + 1 + extra = (fuel + extra) + 1 by omega]
      rw [searchLoop] at h ⊢
      simp only at h ⊢
      split_ifs at h ⊢ <;> first | exact h | exact ih _ _ _ _ _ _ _ h
  obtain ⟨res, h, -⟩ := C52_search law epv epvT delta K pT beta right
  rw [h]
  exact key _ _ _ _ _ _ _ _ h

/-- The marker, an accepted step and a failure do occur. -/
example : limitedSearch (fun _ => 1) 0 0 1 1 (1 / 2) 1 1 64 = some (.found 0 (-1)) := by
  rw [limitedSearch, searchLoop]
  norm_num

example : limitedSearch (fun _ => 1) 0 0 (1 / 2) 1 2 1 1 64 = some (.found (-(1 / 2)) 1) := by
  rw [limitedSearch, searchLoop]
  norm_num [sgn]

example : limitedSearch (fun _ => 1) 10 0 1 1 1 1 (-1) 64 = some .failed := by
  obtain ⟨res, h, ok⟩ := C52_search (fun _ => 1) 10 0 1 1 1 1 (-1)
  rw [h]
  cases res with
  | failed => rfl
  | found e r =>
    exfalso
    obtain ⟨back, k, -, -, -, ok⟩ := ok
    have hp : (0 : ℝ) < 1 / 2 ^ k := by positivity
    have hk : (1 : ℝ) / 2 ^ k ≤ 1 := by
      rw [div_le_one (by positivity)]; exact one_le_pow₀ (by norm_num)
    have hc : 9 ≤ candidate 10 1 back k := by
      unfold candidate
      cases back
      · simp only [Bool.false_eq_true, if_false, one_mul]; linarith
      · simp only [if_true, mul_one, neg_div]; linarith
    have hcross : ∀ e, ¬ CrossedCentre (fun _ => 1) 0 1 1 1 (-1) e := by
      intro e h; unfold CrossedCentre at h; norm_num at h
    rcases ok with ⟨rfl, -, ok⟩ | ⟨-, -, ok⟩
    · rcases ok with ok | ⟨-, ok⟩
      · unfold NearCentre pressureAt centreAt at ok
        rw [abs_le] at ok
        norm_num at ok
        linarith [ok.2]
      · unfold NonnegMultiplier pressureAt centreAt at ok
        nlinarith
    · exact hcross _ ok

end Verif.Props
