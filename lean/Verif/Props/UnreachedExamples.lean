import Verif.Props.Unreached
import Verif.Props.RunExamples

/-!
# C127: examples
-/

namespace Verif.Props.RunEx
open Verif Matrix
noncomputable section

/-- A floor near the particles, and a lid high above them that comes down. -/
def floorAndLid : List (Plate 2) :=
  [⟨0, .bottom, .noSlip, 0, -1000, 1000, 0, 0, 1, 0⟩, ⟨100, .top, .slipFree, 0, -1000, 1000, ![0, -1], ![0, -1], 1, 0⟩]

/-- The lid. -/
def isLid (p : Plate 2) : Bool := match p.type with | .top => true | _ => false

lemma isLid_move (p : Plate 2) (dt fd t : ℝ) : isLid (plateOps2.move p dt fd t) = isLid p := by
  simp only [plateOps2, Plate.move2, isLid]
  cases h : p.type <;> simp [h]

/-- The hypotheses of `C127_run`: in the only step of the run the nodes fall from below the lid. -/
lemma lid_notHit (musl : Bool) (s1 : LoopState 2 (World 2)) (dt : ℝ) (g : Fin 2 → ℝ) (w : World 2)
    (hst : StepOf (d := 0) (setup musl 1 .vm) (start pair ![0, -1] floorAndLid) s1 dt g w) :
    NotHit (d := 0) (setup musl 1 .vm) (fun _ => false) isLid s1.w dt g w := by
  have hdt := hst.dt_ge
  obtain ⟨k, hr, -⟩ := hst
  have hk := only_begin_of (R := setup musl 1 .vm) rfl (by simp [pair]) (fun p hp => (pair_rest p hp).1) ![0, -1] (pl := floorAndLid) k s1 hr
  subst hk
  cases hr
  have hw : (begin (setup musl 1 .vm) (start pair ![0, -1] floorAndLid)).w.ps = pair := by
    rw [begin_w]; simp [fillMuI, setup, start, mkTransferParams]
  have hpl : (begin (setup musl 1 .vm) (start pair ![0, -1] floorAndLid)).w.plates = floorAndLid := by
    rw [begin_w]; simp [fillMuI, setup, start, mkTransferParams]
  have hg : g = ![0, -1] := by
    rw [hdt.2]; simp [rampGravity, setup, cfg, start, begin, startState, exConfig]
  unfold NotHit
  intro S i hi hmass
  refine ⟨fun o _ h => (by simp at h), fun p hp hlid => ?_⟩
  rw [hpl] at hp
  rw [hw] at hmass ⊢
  obtain ⟨q, hq, hqs⟩ : ∃ q ∈ pair, shape .two 1 (nodeAt w.g i) q.x ≠ 0 := by
    by_contra hno
    push Not at hno
    apply hmass.ne'
    unfold Mpm.Scheme.nodeMass
    refine List.sum_eq_zero fun y hy => ?_
    obtain ⟨q, hq, rfl⟩ := List.mem_map.mp hy
    show S.mass * shape .two 1 (nodeAt w.g i) q.x = 0
    rw [hno q (List.mem_of_mem_filter hq), mul_zero]
  have hX : nodeAt w.g i 1 < 2 := by
    by_contra hX
    refine hqs (shape_far (a := 1) ?_)
    have hq0 : q.x 1 = 0 := by
      simp only [pair, List.mem_cons, List.not_mem_nil, or_false] at hq
      rcases hq with rfl | rfl <;> simp [Particle.init]
    rw [hq0, div_one, zero_sub, abs_neg]
    exact (not_lt.mp hX).trans (le_abs_self _)
  have hin : p.type = .top ∧ p.pos = 100 := by
    simp only [floorAndLid, List.mem_cons, List.not_mem_nil, or_false] at hp
    rcases hp with rfl | rfl
    · simp [isLid] at hlid
    · exact ⟨rfl, rfl⟩
  have hmom : S.nodeMomentum pair (nodeAt w.g i) = 0 := by
    unfold Mpm.Scheme.nodeMomentum
    refine List.sum_eq_zero fun y hy => ?_
    obtain ⟨q, hq, rfl⟩ := List.mem_map.mp hy
    have : S.affine q (nodeAt w.g i) = 0 := by
      have hq' := List.mem_of_mem_filter hq
      simp only [pair, List.mem_cons, List.not_mem_nil, or_false] at hq'
      unfold Mpm.Scheme.affine
      rcases hq' with rfl | rfl <;> simp [Particle.init]
    rw [this, smul_zero]
  have hforce : S.nodeForce pair (nodeAt w.g i) = 0 := by
    unfold Mpm.Scheme.nodeForce
    rw [neg_eq_zero]
    refine List.sum_eq_zero fun y hy => ?_
    obtain ⟨q, hq, rfl⟩ := List.mem_map.mp hy
    have hq' := List.mem_of_mem_filter hq
    simp only [pair, List.mem_cons, List.not_mem_nil, or_false] at hq'
    rcases hq' with rfl | rfl <;> simp [Particle.init]
  have hb : S.before pair (nodeAt w.g i) = 0 := by
    unfold Mpm.Scheme.before
    rw [if_pos hmass, hmom, smul_zero]
  have hS : S.dt = dt ∧ S.gravity = ![0, -1] := ⟨rfl, hg⟩
  rw [aboutToBe, hb, hforce, hS.1, hS.2]
  show ¬ Plate.inside2 p _
  simp only [Plate.inside2, hin.1, hin.2]
  rintro ⟨-, -, h⟩
  simp at h
  nlinarith [sq_nonneg dt]

/-- `C127_run`: the run without the lid gives the same files, up to the lid. -/
example (musl : Bool) : ∃ t w, .particles 1 t w ∈ filesOf (runProgram (setup musl 1 .vm) true false 10 (start pair ![0, -1] floorAndLid)) ∧
    .particles 1 t { w with plates := w.plates.filter fun p => !isLid p } ∈
      filesOf (runProgram (setup musl 1 .vm) true false 10 (start pair ![0, -1] [⟨0, .bottom, .noSlip, 0, -1000, 1000, 0, 0, 1, 0⟩])) := by
  obtain ⟨r, h, t, w, hw⟩ := one_step_run musl (.inl rfl) (ps := pair) (by simp [pair]) (fun p hp => (pair_rest p hp).1)
    ![0, -1] floorAndLid
  refine ⟨t, w, by rw [h]; exact hw, ?_⟩
  have key := C127_run (d := 0) (O := fun _ => false) (E := isLid) (deg := .two) (dx := 1) (fr := -19 / 20) (m := 3) (vol := 1) (mibf := false)
    (R := setup musl 1 .vm) (s := start pair ![0, -1] floorAndLid)
    rfl (by simp) one_pos (by norm_num) rfl (fun _ _ => by simp [setup]) (fun p dt t => isLid_move p dt _ t)
    (lid_notHit musl) h
  have e1 : withoutObjects (fun _ => false) (setup musl 1 .vm) = setup musl 1 .vm := by simp [withoutObjects, setup]
  have e2 : (start pair ![0, -1] floorAndLid).map (withoutPlates isLid) id =
      start pair ![0, -1] [⟨0, .bottom, .noSlip, 0, -1000, 1000, 0, 0, 1, 0⟩] := by
    simp [LoopState.map, withoutPlates, start, floorAndLid, isLid, List.filter]
  rw [e1, e2] at key
  rw [key]
  exact List.mem_map.mpr ⟨_, hw, rfl⟩

end

end Verif.Props.RunEx
