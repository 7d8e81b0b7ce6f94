import Verif.Props.Consistency
import Verif.Props.Equilibrium
import Verif.Props.Dependence

set_option linter.unusedSectionVars false
set_option linter.unusedSimpArgs false
set_option linter.unusedVariables false

/-!
# C125: the inside of a body in equilibrium stays at rest until the disturbances from its surface arrive
-/

namespace Verif.Props
open Verif Matrix
noncomputable section

variable {d : ℕ} {R : Setup (d + 2)} {s : LoopState (d + 2) (World (d + 2))} {deg : Deg} {dx fr m vol : ℝ} {mibf : Bool} {k : ℕ}
  {i e : Bool} {fuel : ℕ}

/-- Spec: in the cube with centre `c` and half width `r` the particles form a regular lattice with spacing `h`, are at rest below
the yield stress, and have the stresses of the field `σ`. -/
structure DormantIn (mat : Material) (h : ℝ) (c : Fin d → ℝ) (r : ℝ) (σ : (Fin d → ℝ) → Matrix (Fin d) (Fin d) ℝ)
    (ps : List (Particle d ℝ)) : Prop where
  regular : LatticeNear h r c (ps.map fun q => q.x)
  dormant : ∀ p ∈ ps, InCube c r p.x → Dormant mat p ∧ p.tau = σ p.x

/-- The particles that were, or are now, in the cube are unchanged. -/
def UnchangedIn (c : Fin d → ℝ) (r : ℝ) (ps qs : List (Particle d ℝ)) : Prop :=
  List.Forall₂ (fun p q => InCube c r p.x ∨ InCube c r q.x → Unchanged p q) ps qs

lemma UnchangedIn.count {c : Fin d → ℝ} {r : ℝ} {y : Fin d → ℝ} (hy : InCube c r y) : ∀ {ps qs : List (Particle d ℝ)},
    UnchangedIn c r ps qs → (qs.map fun q => q.x).count y = (ps.map fun q => q.x).count y
  | _, _, .nil => rfl
  | _, _, .cons (a := p) (b := q) h t => by
    have ih := UnchangedIn.count hy t
    have e : q.x = y ↔ p.x = y := by
      constructor
      · intro hq; rw [← hq]; exact (h (.inr (by rw [hq]; exact hy))).1.symm
      · intro hp; rw [← hp]; exact (h (.inl (by rw [hp]; exact hy))).1
    simp only [List.map_cons, List.count_cons, ih, beq_iff_eq, e]

lemma UnchangedIn.mem {c : Fin d → ℝ} {r : ℝ} {ps qs : List (Particle d ℝ)} (h : UnchangedIn c r ps qs) {q : Particle d ℝ}
    (hq : q ∈ qs) (hc : InCube c r q.x) : ∃ p ∈ ps, Unchanged p q := by
  obtain ⟨p, hp, hpq⟩ := forall₂_right h q hq
  exact ⟨p, hp, hpq (.inr hc)⟩

/-- What is inside a cube that has not changed. -/
lemma UnchangedIn.fields {mat : Material} {h r ρ D : ℝ} {c x : Fin d → ℝ} {σ : (Fin d → ℝ) → Matrix (Fin d) (Fin d) ℝ}
    {ps qs : List (Particle d ℝ)} (hD : DormantIn mat h c r σ ps) (hu : UnchangedIn c ρ ps qs) (hρ : ρ ≤ r) (hx : InCube c (ρ - D) x) :
    FieldsNear deg dx fr h D 0 0 σ qs x := by
  have hin : ∀ y : Fin d → ℝ, (∀ a, |y a - x a| < D) → InCube c ρ y := fun y hy a => by
    have h1 := abs_add_le (y a - x a) (x a - c a)
    have h2 := hy a
    have h3 := hx a
    rw [show y a - x a + (x a - c a) = y a - c a by ring] at h1
    linarith
  have hl : LatticeNear h D x (ps.map fun q => q.x) := hD.regular.mono fun a => by have := hx a; linarith
  constructor
  · obtain ⟨o, h1, h2⟩ := hl
    refine ⟨o, fun z hz => ?_, fun y hy hya => ?_⟩
    · rw [hu.count (hin _ hz)]; exact h1 z hz
    · obtain ⟨q, hq, rfl⟩ := List.mem_map.mp hy
      obtain ⟨p, hp, hpq⟩ := hu.mem hq (hin _ hya)
      exact h2 _ (List.mem_map.mpr ⟨p, hp, hpq.1.symm⟩) hya
  · intro q hq hqa
    obtain ⟨p, hp, hpq⟩ := hu.mem hq (hin _ hqa)
    have hpc : InCube c r p.x := by rw [← hpq.1]; exact (hin _ hqa).mono hρ
    obtain ⟨h1, h2⟩ := hD.dormant p hp hpc
    obtain ⟨b1, b2, -⟩ := hpq.dormant h1
    refine ⟨by rw [hpq.2.2.2.2.1, h2, hpq.1], by rw [b1]; simp, fun _ => by rw [b2]; simp⟩

section run
variable (hS : R.S.P = mkTransferParams deg dx fr mibf m vol) (hd : deg ≠ .one) (hdx : 0 < dx) (hm : 0 < m) (hk : 0 < k)
  (hpbc : R.S.pbc = false) (hch : R.S.changePos = false) (hsched : ∀ k ps, (R.sched k ps).flatten.Perm ps)
  (hok : Sensible R.m (d + 2)) (hsvd : ∀ F, IsSvd F (R.svd F)) (hgrav : R.C.gravitySpecial = false)
  (hn : ∀ s1 dt g w, StepOf R s s1 dt g w → NoTinyWeights deg dx w.g s1.w.ps)
  {σ : (Fin (d + 2) → ℝ) → Matrix (Fin (d + 2)) (Fin (d + 2)) ℝ} (hσ : IsQuadratic σ)
  (hbal : ∀ y, (vol / m) • divergence σ y = -s.gravity)
  {c : Fin (d + 2) → ℝ} {r δ : ℝ} (hδ : 0 ≤ δ) (hD : DormantIn R.m (dx / k) c r σ s.w.ps)
  (hmove : ∀ s1 dt g w, StepOf R s s1 dt g w → MovesAtMost δ s1.w.ps w.ps)
  (hwall : ∀ s1 dt g w, StepOf R s s1 dt g w → NoWallNear R r s1.w.plates c)
include hS hd hdx hm hk hpbc hch hsched hok hsvd hgrav hn hσ hbal hδ hD hmove hwall

/-- **C125** One step: the unchanged region shrinks by the distance a particle sees and the distance the particles move. -/
theorem C125_step {s1 : LoopState (d + 2) (World (d + 2))} {dt : ℝ} {g : Fin (d + 2) → ℝ} {w : World (d + 2)}
    (hst : StepOf R s s1 dt g w) {ρ : ℝ} (hρ : ρ ≤ r) (hu : UnchangedIn c ρ s.w.ps s1.w.ps) :
    UnchangedIn c (ρ - (2 * width deg * dx + δ)) s.w.ps w.ps := by
  have hg : g = s.gravity := by
    rw [hst.gravity_at, gravityAt, hgrav]; simp
  subst hg
  have hD0 : 0 ≤ 2 * width deg * dx := by
    have : 0 < width deg := by cases deg <;> norm_num [width]
    positivity
  have key := C124_equilibrium hS hd hdx hm hk hpbc hch hsched hst (hn _ _ _ _ hst) hσ hbal
  have one : List.Forall₂ (fun q q' => InCube c (ρ - 2 * width deg * dx) q.x → (∀ p ∈ s.w.ps, Unchanged p q → Unchanged p q'))
      s1.w.ps w.ps := by
    refine key.imp fun q q' h hq p hp hpq => ?_
    have hf := hu.fields (deg := deg) (dx := dx) (fr := fr) hD hρ hq
    obtain ⟨h1, h2, h3, q0, o, h4, h5, h6, h7, h8, h9, h10, h11, h12, h13⟩ := h hf (fun z hz => hwall _ _ _ _ hst z fun a => by
      have e1 := abs_add_le (z a - q.x a) (q.x a - c a)
      have e2 := hz a
      have e3 := hq a
      rw [show z a - q.x a + (q.x a - c a) = z a - c a by ring] at e1
      linarith)
    have hdor := (hD.dormant p hp (by rw [← hpq.1]; exact hq.mono (by linarith))).1
    have hdq := hpq.dormant hdor
    obtain ⟨l1, l2⟩ := dormant_law hok hsvd hdq h5 h6 h4
    refine hpq.trans ⟨h2, by rw [h1, hdq.1], by rw [h3, hdq.2.1], ?_, ?_, ?_, ?_, ?_⟩
    · rw [h9, l2]; exact h5
    · rw [h10, l2]
    · rw [h12, l2]; exact h7
    · rw [h11, l2]; exact h6
    · rw [h13, l2]; exact h8
  have hmv := hmove _ _ _ _ hst
  have comp : ∀ {ps qs rs : List (Particle (d + 2) ℝ)}, (∀ p ∈ ps, p ∈ s.w.ps) → UnchangedIn c ρ ps qs →
      List.Forall₂ (fun q q' => InCube c (ρ - 2 * width deg * dx) q.x → (∀ p ∈ s.w.ps, Unchanged p q → Unchanged p q')) qs rs →
      MovesAtMost δ qs rs → UnchangedIn c (ρ - (2 * width deg * dx + δ)) ps rs := by
    intro ps qs rs hmem h1
    induction h1 generalizing rs with
    | nil => intro h2 _; cases h2; exact .nil
    | @cons p q ps qs h t ih =>
      intro h2 h3
      cases h2 with
      | @cons _ q' _ rs h2 t2 =>
        cases h3 with
        | cons h3 t3 =>
          refine .cons (fun hc => ?_) (ih (fun p hp => hmem p (by simp [hp])) t2 t3)
          rcases hc with hc | hc
          · have hpq := h (.inl (hc.mono (by linarith)))
            exact h2 (by rw [hpq.1]; exact hc.mono (by linarith)) p (hmem p (by simp)) hpq
          · have hq : InCube c (ρ - 2 * width deg * dx) q.x := by
              have := hc.add (y := q.x) (δ := δ) fun a => by rw [abs_sub_comm]; exact h3 a
              exact this.mono (by linarith)
            exact h2 hq p (hmem p (by simp)) (h (.inr (hq.mono (by linarith))))
  exact comp (fun p hp => hp) hu one hmv

lemma unchanged_reach : ∀ n s1, Reach R.C (physics R) s.gravity (begin R s) n s1 →
    UnchangedIn c (r - n * (2 * width deg * dx + δ)) s.w.ps s1.w.ps := by
  have hD0 : 0 ≤ 2 * width deg * dx + δ := by
    have : 0 < width deg := by cases deg <;> norm_num [width]
    positivity
  intro n s1 hr
  induction hr with
  | start =>
    have : List.Forall₂ Unchanged s.w.ps (begin R s).w.ps := by
      rw [begin_w, fillMuI]
      cases R.S.P.useMibf with
      | true =>
        rw [if_pos rfl, List.forall₂_map_right_iff]
        exact List.forall₂_same.mpr fun p _ => ⟨rfl, rfl, rfl, rfl, rfl, rfl, rfl, rfl⟩
      | false => exact List.forall₂_same.mpr fun p _ => .refl p
    unfold UnchangedIn
    exact List.Forall₂.imp (S := fun p q => _ ∨ _ → Unchanged p q) (fun p q h _ => h) this
  | @next n s1 s2 hr hlt hb ih =>
    rcases loopBody_cases (C := R.C) (ph := physics R) (gf := s.gravity) s1 with h | ⟨_, _, _, _, _, h⟩ |
      ⟨dt, g, w, hu, hmin, -, hg, hst, h⟩
    · rw [h] at hb; cases hb
    · rw [h] at hb; cases hb
    have hw : s2.w = w := by
      simp only at h
      rw [h] at hb
      split_ifs at hb
      injection hb with hb
      rw [← hb, endOfFrame_w]
    have := C125_step hS hd hdx hm hk hpbc hch hsched hok hsvd hgrav hn hσ hbal hδ hD hmove hwall (ρ := r - n * (2 * width deg * dx + δ))
      ⟨n, hr, hlt, hu, hst⟩ (by have : (0 : ℝ) ≤ n * (2 * width deg * dx + δ) := by positivity
                                linarith) ih
    rw [hw]
    convert this using 1
    push_cast; ring

/-- **C125** After `n + 1` steps, the particles which are (or were at the beginning) in the cube that is smaller by
`(n + 1) (2 width dx + δ)` are as they were at the beginning. -/
theorem C125_steps {n : ℕ} {s1 : LoopState (d + 2) (World (d + 2))} {dt : ℝ} {g : Fin (d + 2) → ℝ} {w : World (d + 2)}
    (hst : StepNo R s n s1 dt g w) : UnchangedIn c (r - (n + 1 : ℕ) * (2 * width deg * dx + δ)) s.w.ps w.ps := by
  have hD0 : 0 ≤ 2 * width deg * dx + δ := by
    have : 0 < width deg := by cases deg <;> norm_num [width]
    positivity
  have h1 := C125_step hS hd hdx hm hk hpbc hch hsched hok hsvd hgrav hn hσ hbal hδ hD hmove hwall
    (ρ := r - n * (2 * width deg * dx + δ)) ⟨n, hst⟩ (by have : (0 : ℝ) ≤ n * (2 * width deg * dx + δ) := by positivity
                                                         linarith)
    (unchanged_reach hS hd hdx hm hk hpbc hch hsched hok hsvd hgrav hn hσ hbal hδ hD hmove hwall n s1 hst.1)
  convert h1 using 1
  push_cast; ring

/-- **C125** All particle files of a run that starts with a region in equilibrium: the particles deeper in this region than
`k (2 width dx + δ)`, where `k` is the number of steps up to then (at most `t / min_dt`), are as they were at the beginning, and
no other particles are there. -/
theorem C125_run (hmin : 0 < R.C.minDt) {n : ℕ} {t : ℝ} {w : World (d + 2)}
    (hev : .particles n t w ∈ filesOf (runProgram R i e fuel s)) (hnew : .particles n t w ∉ s.out) :
    ∃ k : ℕ, k * R.C.minDt ≤ t ∧ (k ≠ 0 → ∃ s1 dt g, StepNo R s (k - 1) s1 dt g w) ∧
      UnchangedIn c (r - k * (2 * width deg * dx + δ)) s.w.ps w.ps := by
  rcases run_particles hev hnew with ⟨-, rfl, rfl⟩ | ⟨s1, dt, g, ⟨j, hst⟩, rfl⟩
  · exact ⟨0, by simp, by simp, unchanged_reach hS hd hdx hm hk hpbc hch hsched hok hsvd hgrav hn hσ hbal hδ hD hmove hwall 0 _ .start⟩
  · obtain ⟨s0, h0, h2⟩ := reach_earlier hmin hst.1 0 (Nat.zero_le _)
    cases h0
    rw [begin_time, zero_add, Nat.sub_zero] at h2
    have hdt : R.C.minDt ≤ dt := (show StepOf R s s1 dt g w from ⟨j, hst⟩).dt_ge.1
    exact ⟨j + 1, by push_cast; linarith, fun _ => ⟨s1, dt, g, hst⟩,
      C125_steps hS hd hdx hm hk hpbc hch hsched hok hsvd hgrav hn hσ hbal hδ hD hmove hwall hst⟩

end run

end

end Verif.Props
