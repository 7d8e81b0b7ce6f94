import Verif.Model.Run
import Verif.Spec

set_option linter.unusedSectionVars false
set_option linter.unusedSimpArgs false
set_option linter.unusedVariables false

/-! # The whole program in terms of the step on a grid -/

namespace Verif
open Matrix

section keep
variable {d : ℕ} {cabs : ℝ → ℝ} {m : Material} {dt : ℝ} {s : Svd d} {t : Trial d} {st out : PState d}

/-- Motion unchanged. -/
def SameMotion (p q : Particle d ℝ) : Prop :=
  q.x = p.x ∧ q.v = p.v ∧ q.pic = p.pic ∧ q.flip = p.flip ∧ q.Bmat = p.Bmat

lemma SameMotion.rfl' {p : Particle d ℝ} : SameMotion p p := ⟨rfl, rfl, rfl, rfl, rfl⟩

lemma motion_vm : SameMotion st.q (plastVM m dt s t st).q := by
  simp only [plastVM]; split_ifs <;> exact ⟨rfl, rfl, rfl, rfl, rfl⟩

lemma motion_dp : SameMotion st.q (plastDP m dt s t st).q := by
  simp only [plastDP]; split_ifs <;> exact ⟨rfl, rfl, rfl, rfl, rfl⟩

lemma motion_dpSoft : SameMotion st.q (plastDPSoft m dt s t st).q := by
  simp only [plastDPSoft]
  generalize (if m.usePradhana = true then -m.K d * st.q.epsPlVolPradhana else 0) = pShift
  split_ifs <;> exact ⟨rfl, rfl, rfl, rfl, rfl⟩

lemma motion_dpMui : SameMotion st.q (plastDPMui m dt s t st).q := by
  simp only [plastDPMui]
  generalize (if m.usePradhana = true then -m.K d * st.q.epsPlVolPradhana else 0) = pShift
  split_ifs <;> exact ⟨rfl, rfl, rfl, rfl, rfl⟩

lemma motion_vmVisc (ho : plastVMVisc m dt s t st = some out) : SameMotion st.q out.q := by
  simp only [plastVMVisc] at ho
  split_ifs at ho
  · obtain rfl := Option.some.inj ho
    exact ⟨rfl, rfl, rfl, rfl, rfl⟩
  · simp only [Option.bind_eq_bind, Option.bind_eq_some_iff, Option.some.injEq] at ho
    obtain ⟨r, -, rfl⟩ := ho
    exact ⟨rfl, rfl, rfl, rfl, rfl⟩
  · obtain rfl := Option.some.inj ho
    exact ⟨rfl, rfl, rfl, rfl, rfl⟩

lemma motion_dpVisc (ho : plastDPVisc m dt s t st = some out) : SameMotion st.q out.q := by
  simp only [plastDPVisc] at ho
  generalize (if m.usePradhana = true then -m.K d * st.q.epsPlVolPradhana else 0) = pShift at ho
  by_cases h2 : -m.K d * t.trace + pShift > -m.qCohesion / m.M ∧
      m.eMu * t.norm > m.M * (-m.K d * t.trace + pShift) + m.qCohesion
  · simp only [if_pos h2, Option.bind_eq_bind, Option.bind_eq_some_iff, Option.some.injEq] at ho
    obtain ⟨r, -, rfl⟩ := ho
    dsimp only
    split_ifs <;> exact ⟨rfl, rfl, rfl, rfl, rfl⟩
  · rw [if_neg h2] at ho
    obtain rfl := Option.some.inj ho
    split_ifs <;> exact ⟨rfl, rfl, rfl, rfl, rfl⟩

lemma motion_mcc (ho : plastMCC cabs m dt s t st = some out) : SameMotion st.q out.q := by
  simp only [plastMCC, Option.bind_eq_bind, Option.bind_eq_some_iff] at ho
  obtain ⟨r, -, ho⟩ := ho
  by_cases h1 : r.2.did = true
  · simp only [if_pos h1] at ho
    by_cases h2 : m.plastic = .mccVisc
    · simp only [if_pos h2] at ho
      cases hm : m.useMibf <;>
        simp only [hm, if_true, if_false, Bool.false_eq_true, Option.bind_some, Option.bind_eq_some_iff,
          Option.some.injEq] at ho
      · obtain ⟨v, -, rfl⟩ := ho
        exact ⟨rfl, rfl, rfl, rfl, rfl⟩
      · obtain ⟨v, -, u, -, rfl⟩ := ho
        exact ⟨rfl, rfl, rfl, rfl, rfl⟩
    · simp only [if_neg h2] at ho
      cases hm : m.useMibf <;>
        simp only [hm, if_true, if_false, Bool.false_eq_true, Option.bind_some, Option.bind_eq_some_iff,
          Option.some.injEq] at ho
      · obtain rfl := ho
        exact ⟨rfl, rfl, rfl, rfl, rfl⟩
      · obtain ⟨v, -, rfl⟩ := ho
        exact ⟨rfl, rfl, rfl, rfl, rfl⟩
  · simp only [if_neg h1, Option.some.injEq] at ho
    obtain rfl := ho
    split_ifs <;> exact ⟨rfl, rfl, rfl, rfl, rfl⟩

lemma motion_mccMui (ho : plastMCCMui cabs m dt s t st = some out) : SameMotion st.q out.q := by
  simp only [plastMCCMui, Option.bind_eq_bind, Option.bind_eq_some_iff] at ho
  obtain ⟨r, -, ho⟩ := ho
  by_cases h1 : r.2.did = true
  · simp only [if_pos h1] at ho
    by_cases h2 : m.eMu * t.norm > r.2.q + m.stressTol
    · simp only [if_pos h2] at ho
      cases hh : m.hardening <;> simp only [hh, Option.bind_some, Option.bind_assoc,
        Option.bind_eq_some_iff, Option.some.injEq] at ho
      all_goals first
        | (obtain ⟨_, -, _, -, _, -, _, -, rfl⟩ := ho; exact ⟨rfl, rfl, rfl, rfl, rfl⟩)
    · simp only [if_neg h2, Option.bind_some, Option.some.injEq] at ho
      obtain rfl := ho
      exact ⟨rfl, rfl, rfl, rfl, rfl⟩
  · simp only [if_neg h1, Option.some.injEq] at ho
    obtain rfl := ho
    exact ⟨rfl, rfl, rfl, rfl, rfl⟩

lemma motion_plastModel (ho : plastModel cabs m dt s t st = some out) : SameMotion st.q out.q := by
  unfold plastModel at ho
  cases hp : m.plastic <;> simp only [hp, Option.some.injEq, Option.ite_none_left_eq_some] at ho
  · obtain ⟨-, rfl⟩ := ho; exact .rfl'
  all_goals first
    | exact motion_vmVisc ho
    | exact motion_dpVisc ho
    | exact motion_mccMui ho
    | exact motion_mcc ho
    | (subst ho; exact motion_vm)
    | (subst ho; exact motion_dp)
    | (subst ho; exact motion_dpSoft)
    | (subst ho; exact motion_dpMui)

lemma motion_plasticity {svd : Matrix (Fin d) (Fin d) ℝ → Svd d} {q : Particle d ℝ} {e : Bool}
    (ho : plasticity cabs svd m dt q e = some out) : SameMotion q out.q := by
  simp only [plasticity, Option.bind_eq_bind, Option.bind_eq_some_iff, Option.some.injEq] at ho
  obtain ⟨st', h, rfl⟩ := ho
  exact motion_plastModel h

end keep

section step
variable {d : ℕ}

/-- The plastic update made total (the value outside its domain is irrelevant). -/
noncomputable def plastTotal (R : Setup d) (dt : ℝ) (q : Particle d ℝ) : Particle d ℝ :=
  ((plasticUpdate R dt q).map (·.1)).getD q

lemma plastTotal_eq {R : Setup d} {dt : ℝ} {q : Particle d ℝ} {r : Particle d ℝ × Bool}
    (h : plasticUpdate R dt q = some r) : plastTotal R dt q = r.1 := by
  simp [plastTotal, h]

lemma plastTotal_keeps (R : Setup d) (dt : ℝ) : KeepsMotion (plastTotal R dt) := by
  have h : ∀ p, SameMotion p (plastTotal R dt p) := by
    intro p
    simp only [plastTotal, plasticUpdate]
    cases hp : plasticity R.cabs R.svd R.m dt p false with
    | none => exact .rfl'
    | some st => exact motion_plasticity hp
  exact ⟨fun p => (h p).1, fun p => (h p).2.1, fun p => (h p).2.2.1, fun p => (h p).2.2.2.1,
    fun p => (h p).2.2.2.2⟩

lemma mapM_some_map {α β γ : Type*} {f : α → Option β} {g : α → γ} {h : β → γ} :
    ∀ {l : List α} {r : List β}, l.mapM f = some r → (∀ a b, f a = some b → g a = h b) →
      l.map g = r.map h := by
  intro l
  induction l with
  | nil => intro r hr _; simp at hr; simp [hr]
  | cons a l ih =>
    intro r hr H
    simp only [List.mapM_cons, Option.bind_eq_bind, Option.bind_eq_some_iff, Option.pure_def,
      Option.some.injEq] at hr
    obtain ⟨b, hb, bs, hbs, rfl⟩ := hr
    simp [H a b hb, ih hbs H]

lemma mapM_mem {α β : Type*} {f : α → Option β} :
    ∀ {l : List α} {r : List β}, l.mapM f = some r → ∀ b ∈ r, ∃ a ∈ l, f a = some b := by
  intro l
  induction l with
  | nil => intro r hr b hb; simp at hr; simp [hr] at hb
  | cons a l ih =>
    intro r hr b hb
    simp only [List.mapM_cons, Option.bind_eq_bind, Option.bind_eq_some_iff, Option.pure_def,
      Option.some.injEq] at hr
    obtain ⟨b', hb', bs, hbs, rfl⟩ := hr
    rcases List.mem_cons.mp hb with rfl | hb
    · exact ⟨a, by simp, hb'⟩
    · obtain ⟨a', h1, h2⟩ := ih hbs b hb
      exact ⟨a', by simp [h1], h2⟩

variable {R : Setup d} {dt : ℝ} {g : Axes d ℝ}

lemma g2pFull_eq {e : EulerArr d ℝ} {ps : List (Particle d ℝ)} {qs : List (Particle d ℝ × Bool)}
    (h : g2pFull R dt g e ps = some qs) :
    G2P R.S.P R.S.useMusl dt (plastTotal R dt) g e ps = some (qs.map (·.1)) := by
  simp only [g2pFull, Option.bind_eq_bind, Option.bind_eq_some_iff] at h
  obtain ⟨ss, h1, h2⟩ := h
  simp only [G2P, h1, Option.bind_eq_bind, Option.bind_some, Option.some.injEq]
  refine mapM_some_map h2 fun a b hab => ?_
  simp only [g2pFullParticle] at hab
  simp only [g2pParticle]
  split_ifs at hab ⊢
  · obtain rfl := Option.some.inj hab; rfl
  · exact plastTotal_eq hab

lemma deformFull_eq {v : ℕ → Fin d → ℝ} {ps : List (Particle d ℝ)} {qs : List (Particle d ℝ × Bool)}
    (h : deformFull R dt g v ps = some qs) :
    deformationUpdate R.S.P dt (plastTotal R dt) g v ps = some (qs.map (·.1)) := by
  simp only [deformFull, Option.bind_eq_bind, Option.bind_eq_some_iff] at h
  obtain ⟨ss, h1, h2⟩ := h
  simp only [deformationUpdate, h1, Option.bind_eq_bind, Option.bind_some, Option.some.injEq]
  exact mapM_some_map h2 fun a b hab => plastTotal_eq hab

lemma mapM_forall₂ {α β : Type*} {f : α → Option β} :
    ∀ {l : List α} {r : List β}, l.mapM f = some r → List.Forall₂ (fun a b => f a = some b) l r := by
  intro l
  induction l with
  | nil => intro r hr; simp at hr; simp [hr]
  | cons a l ih =>
    intro r hr
    simp only [List.mapM_cons, Option.bind_eq_bind, Option.bind_eq_some_iff, Option.pure_def,
      Option.some.injEq] at hr
    obtain ⟨b, hb, bs, hbs, rfl⟩ := hr
    exact .cons hb (ih hbs)

lemma mapM_total {α β : Type*} {f : α → Option β} (l : List α) (h : ∀ a ∈ l, (f a).isSome) :
    ∃ r, l.mapM f = some r := by
  induction l with
  | nil => exact ⟨[], rfl⟩
  | cons a l ih =>
    obtain ⟨b, hb⟩ := Option.isSome_iff_exists.mp (h a (by simp))
    obtain ⟨r, hr⟩ := ih fun a ha => h a (by simp [ha])
    exact ⟨b :: r, by simp [hb, hr]⟩

lemma forall₂_trans {α β γ : Type*} {R : α → β → Prop} {S : β → γ → Prop} :
    ∀ {l : List α} {m : List β} {n : List γ}, List.Forall₂ R l m → List.Forall₂ S m n →
      List.Forall₂ (fun a c => ∃ b, R a b ∧ S b c) l n := by
  intro l m n h1
  induction h1 generalizing n with
  | nil => intro h2; cases h2; exact .nil
  | cons h _ ih =>
    intro h2
    cases h2 with
    | cons h' h2 => exact .cons ⟨_, h, h'⟩ (ih h2)

/-- What the rest of a step may change in a particle before its plastic update. -/
def Carried (p q : Particle d ℝ) : Prop :=
  ∃ v pic flip B F dg,
    q = { p with v := v, pic := pic, flip := flip, Bmat := B, F := F, deltaGamma := dg }

/-- `p'` is what a step makes of `p`: plastic update of a state `q` with the history of `p`; with MUSL the
plastic rate is reset before, otherwise kept. -/
def Updated (R : Setup d) (dt : ℝ) (p p' : Particle d ℝ) : Prop :=
  ∃ q r x v, Carried p q ∧ plasticUpdate R dt q = some r ∧ p' = { r.1 with x := x, v := v } ∧ r.2 = false ∧
    q.deltaGamma = if R.S.useMusl then 0 else p.deltaGamma

lemma withStencils_forall₂ {st : (Fin d → ℝ) → Option (Stencil d ℝ)} {ps : List (Particle d ℝ)} {ss}
    (h : withStencils st ps = some ss) : List.Forall₂ (fun p s => s.1 = p) ps ss := by
  refine (mapM_forall₂ h).imp fun p s hs => ?_
  simp only [Option.map_eq_some_iff] at hs
  obtain ⟨t, -, rfl⟩ := hs
  rfl

end step

section whole
variable {d : ℕ} {R : Setup (d + 2)} {dt : ℝ} {grav : Fin (d + 2) → ℝ} {time : ℝ} {n : ℕ}
  {w w' : World (d + 2)} {ex : Bool}

/-- A step of the program is a step of `advanceStep` with the program's boundary and plastic update. -/
lemma physStep_advance (h : physStep R w dt grav time n = some (w', ex)) :
    ∃ fr, advanceStep R.S dt grav (boundaryCollision R.ops R.S.P.useMibf fr dt R.objs w.plates)
        (plastTotal R dt) (R.sched n) ⟨w.ps, w.box, w.g, n⟩ = some ⟨w'.ps, w'.box, w'.g, n + 1⟩ := by
  simp only [physStep, Option.bind_eq_bind, Option.bind_eq_some_iff] at h
  obtain ⟨bg, h1, h⟩ := h
  by_cases hm : R.S.P.useMibf = true ∧
      (if R.S.pbc = true then ghosts R.S.P.dx (R.S.L 0) 4 w.ps else []) ≠ []
  · rw [if_pos hm] at h
    exact absurd h (by simp)
  rw [if_neg hm] at h
  simp only [Option.bind_eq_bind, Option.bind_some, Option.bind_eq_some_iff] at h
  obtain ⟨arr, h2, qs, h3, h⟩ := h
  refine ⟨fun l => (arr l).friction, ?_⟩
  have h3' := g2pFull_eq h3
  simp only [advanceStep, h1, Option.bind_eq_bind, Option.bind_some, stepOnGrid, if_neg hm, h2, h3']
  by_cases hu : R.S.useMusl = true
  · simp only [if_pos hu, Option.bind_eq_some_iff] at h ⊢
    obtain ⟨r, h4, qv, h5m, h⟩ := h
    obtain ⟨qs', h5, rfl⟩ := Option.map_eq_some_iff.mp h5m
    obtain ⟨rfl, -⟩ := Prod.mk.inj (Option.some.inj h)
    refine ⟨_, ⟨r, h4, _, deformFull_eq h5, rfl⟩, ?_⟩
    simp [List.map_map, Function.comp_def]
  · simp only [if_neg hu, Option.bind_some, Option.bind_eq_some_iff] at h ⊢
    obtain ⟨rfl, -⟩ := Prod.mk.inj (Option.some.inj h)
    simp [List.map_map, Function.comp_def]

/-- Every particle after a step is, up to position and velocity, the output of the plastic update. -/
lemma physStep_particle (h : physStep R w dt grav time n = some (w', ex)) {p : Particle (d + 2) ℝ}
    (hp : p ∈ w'.ps) : ∃ q r x v, plasticUpdate R dt q = some r ∧ p = { r.1 with x := x, v := v } ∧
      (r.2 = true → ex = true) := by
  simp only [physStep, Option.bind_eq_bind, Option.bind_eq_some_iff] at h
  obtain ⟨bg, h1, h⟩ := h
  by_cases hm : R.S.P.useMibf = true ∧
      (if R.S.pbc = true then ghosts R.S.P.dx (R.S.L 0) 4 w.ps else []) ≠ []
  · rw [if_pos hm] at h
    exact absurd h (by simp)
  rw [if_neg hm] at h
  simp only [Option.bind_eq_bind, Option.bind_some, Option.bind_eq_some_iff] at h
  obtain ⟨arr, h2, qs, h3, h⟩ := h
  by_cases hu : R.S.useMusl = true
  · simp only [if_pos hu, Option.bind_eq_some_iff] at h
    obtain ⟨r, h4, qv, h5m, h⟩ := h
    obtain ⟨qs', h5, rfl⟩ := Option.map_eq_some_iff.mp h5m
    obtain ⟨rfl, rfl⟩ := Prod.mk.inj (Option.some.inj h)
    simp only [List.mem_map] at hp
    obtain ⟨q', hq', rfl⟩ := hp
    simp only [deformFull, Option.bind_eq_bind, Option.bind_eq_some_iff] at h5
    obtain ⟨ss, -, h5⟩ := h5
    obtain ⟨a, -, ha⟩ := mapM_mem h5 q' hq'
    exact ⟨_, q', _, _, ha, rfl, fun he => List.any_eq_true.mpr ⟨q', hq', he⟩⟩
  · simp only [if_neg hu, Option.bind_some] at h
    obtain ⟨rfl, rfl⟩ := Prod.mk.inj (Option.some.inj h)
    simp only [List.mem_map] at hp
    obtain ⟨q', hq', rfl⟩ := hp
    simp only [g2pFull, Option.bind_eq_bind, Option.bind_eq_some_iff] at h3
    obtain ⟨ss, -, h5⟩ := h3
    obtain ⟨a, -, ha⟩ := mapM_mem h5 q' hq'
    simp only [g2pFullParticle, if_neg hu] at ha
    exact ⟨_, q', _, _, ha, rfl, fun he => List.any_eq_true.mpr ⟨q', hq', he⟩⟩

/-- The particles after a step are the updated particles before it, in the same order. -/
lemma physStep_forall₂ (h : physStep R w dt grav time n = some (w', false)) :
    List.Forall₂ (Updated R dt) w.ps w'.ps := by
  simp only [physStep, Option.bind_eq_bind, Option.bind_eq_some_iff] at h
  obtain ⟨bg, h1, h⟩ := h
  by_cases hm : R.S.P.useMibf = true ∧
      (if R.S.pbc = true then ghosts R.S.P.dx (R.S.L 0) 4 w.ps else []) ≠ []
  · rw [if_pos hm] at h
    exact absurd h (by simp)
  rw [if_neg hm] at h
  simp only [Option.bind_eq_bind, Option.bind_some, Option.bind_eq_some_iff] at h
  obtain ⟨arr, h2, qs, h3, h⟩ := h
  simp only [g2pFull, Option.bind_eq_bind, Option.bind_eq_some_iff] at h3
  obtain ⟨ss, h3a, h3⟩ := h3
  have hA := forall₂_trans (withStencils_forall₂ h3a) (mapM_forall₂ h3)
  by_cases hu : R.S.useMusl = true
  · simp only [if_pos hu, Option.bind_eq_some_iff] at h
    obtain ⟨r, h4, qv, h5m, h⟩ := h
    obtain ⟨qs', h5, rfl⟩ := Option.map_eq_some_iff.mp h5m
    obtain ⟨rfl, hex⟩ := Prod.mk.inj (Option.some.inj h)
    simp only [MUSL, Option.bind_eq_bind, Option.bind_eq_some_iff, Option.some.injEq] at h4
    obtain ⟨_, -, rfl⟩ := h4
    simp only [deformFull, Option.bind_eq_bind, Option.bind_eq_some_iff] at h5
    obtain ⟨ss', h5a, h5⟩ := h5
    have hB := forall₂_trans (withStencils_forall₂ h5a) (mapM_forall₂ h5)
    simp only [List.map_cons, List.map_nil, List.flatten_cons, List.flatten_nil, List.append_nil,
      List.map_map, List.forall₂_map_left_iff] at hB
    rw [List.forall₂_map_right_iff]
    have hC := forall₂_trans hA hB
    refine (List.forall₂_iff_zip.mpr ⟨hC.length_eq, fun {a b} hab => ?_⟩)
    obtain ⟨c, ⟨s1, rfl, hs1⟩, s2, hs2, hs2'⟩ := (List.forall₂_iff_zip.mp hC).2 hab
    simp only [g2pFullParticle, if_pos hu, Option.some.injEq] at hs1
    have hb : b ∈ qs' := (List.of_mem_zip hab).2
    refine ⟨_, b, _, _, ?_, hs2', rfl, ?_, by rw [if_pos hu]⟩
    · subst hs1
      rw [hs2]
      exact ⟨_, _, _, _, _, _, rfl⟩
    · by_contra hne
      have : (qs'.any fun x => x.2) = true := List.any_eq_true.mpr ⟨b, hb, by simpa using hne⟩
      rw [this] at hex; cases hex
  · simp only [if_neg hu, Option.bind_some] at h
    obtain ⟨rfl, hex⟩ := Prod.mk.inj (Option.some.inj h)
    rw [List.forall₂_map_right_iff]
    refine (List.forall₂_iff_zip.mpr ⟨hA.length_eq, fun {a b} hab => ?_⟩)
    obtain ⟨s1, rfl, hs1⟩ := (List.forall₂_iff_zip.mp hA).2 hab
    simp only [g2pFullParticle, if_neg hu] at hs1
    have hb : b ∈ qs := (List.of_mem_zip hab).2
    refine ⟨_, b, _, _, ?_, hs1, rfl, ?_, by rw [if_neg hu]; rfl⟩
    · exact ⟨_, _, _, _, _, _, rfl⟩
    · by_contra hne
      have : (qs.any fun x => x.2) = true := List.any_eq_true.mpr ⟨b, hb, by simpa using hne⟩
      rw [this] at hex; cases hex

/-- If the plastic update is defined for all states, a step is defined when the step on the grid is. -/
lemma physStep_isSome (hpl : ∀ q, (plasticUpdate R dt q).isSome)
    (h : ∀ bc, ∃ σ, advanceStep R.S dt grav bc (plastTotal R dt) (R.sched n) ⟨w.ps, w.box, w.g, n⟩ = some σ) :
    ∃ r, physStep R w dt grav time n = some r := by
  simp only [advanceStep, stepOnGrid, Option.bind_eq_bind, Option.bind_eq_some_iff] at h
  obtain ⟨_, bg, h1, _⟩ := h fun _ _ v => v
  simp only [h1, Option.some.injEq, exists_eq_left'] at h
  simp only [physStep, h1, Option.bind_eq_bind, Option.bind_some]
  by_cases hm : R.S.P.useMibf = true ∧
      (if R.S.pbc = true then ghosts R.S.P.dx (R.S.L 0) 4 w.ps else []) ≠ []
  · obtain ⟨_, _, h, _⟩ := h fun _ _ v => v
    rw [if_pos hm] at h
    exact absurd h (by simp)
  rw [if_neg hm]
  simp only [if_neg hm, Option.bind_some, Option.bind_eq_bind, Option.bind_eq_some_iff] at h
  obtain ⟨_, _, ⟨arr, h2, _⟩, _⟩ := h fun _ _ v => v
  simp only [h2, Option.some.injEq, exists_eq_left'] at h
  simp only [h2, Option.bind_some]
  obtain ⟨_, _, ⟨qs, h3, h⟩, -⟩ := h (boundaryCollision R.ops R.S.P.useMibf (fun l => (arr l).friction) dt R.objs w.plates)
  have hg : ∃ qs', g2pFull R dt bg.2 (eulerUpdate R.S.P dt grav (boundaryCollision R.ops R.S.P.useMibf
      (fun l => (arr l).friction) dt R.objs w.plates) bg.2 arr) w.ps = some qs' := by
    simp only [G2P, Option.bind_eq_bind, Option.bind_eq_some_iff] at h3
    obtain ⟨ss, h3, -⟩ := h3
    simp only [g2pFull, h3, Option.bind_eq_bind, Option.bind_some]
    refine mapM_total _ fun a _ => ?_
    simp only [g2pFullParticle]
    split_ifs
    · rfl
    · exact hpl _
  obtain ⟨qs', hg⟩ := hg
  have := g2pFull_eq hg
  rw [h3] at this
  obtain rfl := Option.some.inj this
  simp only [hg, Option.bind_some]
  by_cases hu : R.S.useMusl = true
  · simp only [if_pos hu, Option.bind_eq_some_iff] at h ⊢
    obtain ⟨r, h4, qs2, h5, -⟩ := h
    simp only [h4, Option.bind_some]
    have hd : ∃ qs', deformFull R dt bg.2 r.2 r.1.flatten = some qs' := by
      simp only [deformationUpdate, Option.bind_eq_bind, Option.bind_eq_some_iff] at h5
      obtain ⟨ss, h5, -⟩ := h5
      simp only [deformFull, h5, Option.bind_eq_bind, Option.bind_some]
      exact mapM_total _ fun a _ => hpl _
    obtain ⟨qs3, hd⟩ := hd
    simp [hd]
  · simp [if_neg hu]

/-- The plastic update for the states in `ok`; other states are marked by a zero deformation gradient. -/
noncomputable def marked (R : Setup (d + 2)) (dt : ℝ) (ok : Particle (d + 2) ℝ → Prop) (q : Particle (d + 2) ℝ) :
    Particle (d + 2) ℝ :=
  open Classical in if ok q then plastTotal R dt q else { q with F := 0 }

lemma marked_keeps (ok : Particle (d + 2) ℝ → Prop) : KeepsMotion (marked R dt ok) := by
  have h := plastTotal_keeps R dt
  constructor <;> intro q <;> unfold marked <;> split_ifs
  exacts [h.x q, rfl, h.v q, rfl, h.pic q, rfl, h.flip q, rfl, h.Bmat q, rfl]

/-- A step is defined and raises no error if the plastic update is defined without error for the states in `ok` and
the step with all other states marked is defined and leaves no mark. -/
lemma physStep_marked {ok : Particle (d + 2) ℝ → Prop} (hpl : ∀ q, ok q → ∃ q', plasticUpdate R dt q = some (q', false))
    (h : ∀ fr, ∃ σ, advanceStep R.S dt grav (boundaryCollision R.ops R.S.P.useMibf fr dt R.objs w.plates)
      (marked R dt ok) (R.sched n) ⟨w.ps, w.box, w.g, n⟩ = some σ ∧
      ∀ q ∈ σ.ps, q.F ≠ 0) :
    ∃ w', physStep R w dt grav time n = some (w', false) := by
  have hok : ∀ q, (marked R dt ok q).F ≠ 0 → ok q := by
    intro q hq
    by_contra hc
    exact hq (by simp [marked, hc])
  simp only [advanceStep, stepOnGrid, Option.bind_eq_bind, Option.bind_eq_some_iff] at h
  obtain ⟨_, ⟨bg, h1, _⟩, _⟩ := h fun _ => 0
  simp only [h1, Option.some.injEq, exists_eq_left'] at h
  simp only [physStep, h1, Option.bind_eq_bind, Option.bind_some]
  by_cases hm : R.S.P.useMibf = true ∧
      (if R.S.pbc = true then ghosts R.S.P.dx (R.S.L 0) 4 w.ps else []) ≠ []
  · obtain ⟨_, ⟨_, h, _⟩, _⟩ := h fun _ => 0
    rw [if_pos hm] at h
    exact absurd h (by simp)
  rw [if_neg hm]
  simp only [if_neg hm, Option.bind_some, Option.bind_eq_bind, Option.bind_eq_some_iff] at h
  obtain ⟨_, ⟨_, ⟨arr, h2, _⟩, _⟩, _⟩ := h fun _ => 0
  simp only [h2, Option.some.injEq, exists_eq_left'] at h
  simp only [h2, Option.bind_some]
  obtain ⟨σ, ⟨ps, ⟨qs, h3, h⟩, rfl⟩, hF⟩ :=
    h fun l => (arr l).friction
  simp only [G2P, Option.bind_eq_bind, Option.bind_eq_some_iff, Option.some.injEq] at h3
  obtain ⟨ss, h3, rfl⟩ := h3
  by_cases hu : R.S.useMusl = true
  · simp only [if_pos hu, Option.bind_eq_some_iff, Option.some.injEq] at h
    obtain ⟨r, h4, qs2, h5, rfl⟩ := h
    simp only [g2pFull, h3, Option.bind_eq_bind, Option.bind_some]
    obtain ⟨qs', hg⟩ : ∃ qs', ss.mapM (g2pFullParticle R dt bg.2.size (eulerUpdate R.S.P dt grav (boundaryCollision R.ops
        R.S.P.useMibf (fun l => (arr l).friction) dt R.objs w.plates) bg.2 arr)) = some qs' :=
      mapM_total _ fun a _ => by simp only [g2pFullParticle, if_pos hu]; rfl
    have e : qs'.map (·.1) = ss.map (g2pParticle R.S.P R.S.useMusl dt (marked R dt ok) bg.2.size (eulerUpdate R.S.P dt
        grav (boundaryCollision R.ops R.S.P.useMibf (fun l => (arr l).friction) dt R.objs w.plates) bg.2 arr)) := by
      have := (mapM_forall₂ hg).imp (S := fun a b => g2pParticle R.S.P R.S.useMusl dt (marked R dt ok) bg.2.size
        (eulerUpdate R.S.P dt grav (boundaryCollision R.ops R.S.P.useMibf (fun l => (arr l).friction) dt R.objs w.plates)
        bg.2 arr) a = b.1) fun a b hab => by
          simp only [g2pFullParticle, if_pos hu, Option.some.injEq] at hab
          simp only [g2pParticle, if_pos hu, ← hab]
      rw [← List.forall₂_eq_eq_eq, List.forall₂_map_left_iff, List.forall₂_map_right_iff]
      exact this.flip.imp fun a b h => h.symm
    simp only [hg, Option.bind_some, if_pos hu, e, h4]
    simp only [deformationUpdate, Option.bind_eq_bind, Option.bind_eq_some_iff, Option.some.injEq] at h5
    obtain ⟨tt, h5, rfl⟩ := h5
    simp only [deformFull, h5, Option.bind_eq_bind, Option.bind_some]
    have hall : ∀ a ∈ tt, ∃ q', deformFullParticle R dt bg.2.size r.2 a = some (q', false) := by
      intro a ha
      have := hF _ (List.mem_map.mpr ⟨_, List.mem_map.mpr ⟨a, ha, rfl⟩, rfl⟩)
      exact hpl _ (hok _ this)
    obtain ⟨us, hus⟩ := mapM_total (f := deformFullParticle R dt bg.2.size r.2) (l := tt) fun a ha => by
      obtain ⟨q', h⟩ := hall a ha; rw [h]; rfl
    simp only [hus, Option.map_some, Option.bind_some]
    refine ⟨_, congrArg some (Prod.ext rfl ?_)⟩
    show us.any (·.2) = false
    rw [List.any_eq_false]
    intro x hx
    obtain ⟨a, ha, hax⟩ := mapM_mem hus x hx
    obtain ⟨q', h⟩ := hall a ha
    rw [h] at hax
    simp [← Option.some.inj hax]
  · simp only [if_neg hu, Option.bind_some, Option.some.injEq, exists_eq_left'] at h
    subst h
    have hall : ∀ a ∈ ss, ∃ q', g2pFullParticle R dt bg.2.size (eulerUpdate R.S.P dt grav (boundaryCollision R.ops
        R.S.P.useMibf (fun l => (arr l).friction) dt R.objs w.plates) bg.2 arr) a = some (q', false) := by
      intro a ha
      simp only [g2pFullParticle, if_neg hu]
      refine hpl _ (hok _ ?_)
      have := hF _ (List.mem_map.mpr ⟨_, List.mem_map.mpr ⟨a, ha, rfl⟩, rfl⟩)
      simp only [g2pParticle, if_neg hu] at this
      exact this
    obtain ⟨us, hus⟩ := mapM_total (f := g2pFullParticle R dt bg.2.size (eulerUpdate R.S.P dt grav (boundaryCollision R.ops
        R.S.P.useMibf (fun l => (arr l).friction) dt R.objs w.plates) bg.2 arr)) (l := ss) fun a ha => by
      obtain ⟨q', h⟩ := hall a ha; rw [h]; rfl
    simp only [g2pFull, h3, Option.bind_eq_bind, Option.bind_some, hus, if_neg hu]
    refine ⟨_, congrArg some (Prod.ext rfl ?_)⟩
    show us.any (·.2) = false
    rw [List.any_eq_false]
    intro x hx
    obtain ⟨a, ha, hax⟩ := mapM_mem hus x hx
    obtain ⟨q', h⟩ := hall a ha
    rw [h] at hax
    simp [← Option.some.inj hax]

end whole

end Verif
