import Verif.Lemmas.Run
import Verif.Props.Reinsert
import Verif.Props.FreeFall

set_option linter.unusedSectionVars false
set_option linter.unusedSimpArgs false
set_option linter.unusedVariables false

/-!
# Exchanging the material of a run

Two set-ups that differ in the material only give the same run if the plastic updates agree on all states met.
-/

namespace Verif.Props
open Verif Matrix
noncomputable section

section lists
variable {α β : Type*}

lemma mapM_none_of_mem {f : α → Option β} {l : List α} {x : α} (hx : x ∈ l) (h : f x = none) : l.mapM f = none := by
  induction l with
  | nil => cases hx
  | cons a l ih =>
    rw [List.mapM_cons]
    rcases List.mem_cons.mp hx with rfl | hx
    · rw [h]; rfl
    · rw [ih hx]
      cases f a <;> rfl

lemma exists_none_of_mapM {f : α → Option β} : ∀ {l : List α}, l.mapM f = none → ∃ x ∈ l, f x = none
  | [], h => by simp at h
  | a :: l, h => by
    cases ha : f a with
    | none => exact ⟨a, .head _, ha⟩
    | some b =>
      cases hl : l.mapM f with
      | none => obtain ⟨x, hx, h'⟩ := exists_none_of_mapM hl; exact ⟨x, .tail _ hx, h'⟩
      | some bs => rw [List.mapM_cons, ha, hl] at h; cases h

lemma mapM_of_forall₂ {g : α → Option β} : ∀ {l : List α} {ys : List β},
    List.Forall₂ (fun x y => g x = some y) l ys → l.mapM g = some ys
  | _, _, .nil => rfl
  | _, _, .cons h t => by rw [List.mapM_cons, h, mapM_of_forall₂ t]; rfl

/-- Two partial maps that are undefined together and agree on the results of the first. -/
lemma mapM_swap {f g : α → Option β} {l : List α} (hn : ∀ x ∈ l, f x = none → g x = none)
    (hs : ∀ ys, l.mapM f = some ys → List.Forall₂ (fun x y => f x = some y → g x = some y) l ys) :
    l.mapM g = l.mapM f := by
  cases h : l.mapM f with
  | none =>
    obtain ⟨x, hx, h'⟩ := exists_none_of_mapM h
    exact mapM_none_of_mem hx (hn x hx h')
  | some ys =>
    refine mapM_of_forall₂ ?_
    refine List.forall₂_iff_zip.mpr ⟨(mapM_forall₂ h).length_eq, fun {a b} hab => ?_⟩
    exact (List.forall₂_iff_zip.mp (hs ys h)).2 hab ((List.forall₂_iff_zip.mp (mapM_forall₂ h)).2 hab)

end lists

section step
variable {d : ℕ} {R : Setup (d + 2)} {m' : Material} {w : World (d + 2)} {dt : ℝ} {grav : Fin (d + 2) → ℝ} {time : ℝ}
  {n : ℕ} {Good : Particle (d + 2) ℝ → Particle (d + 2) ℝ → Prop}

/-- The state `q` handed to the plastic update has the history of `p`. -/
def Handed (R : Setup (d + 2)) (p q : Particle (d + 2) ℝ) : Prop :=
  Carried p q ∧ q.deltaGamma = if R.S.useMusl then 0 else p.deltaGamma

/-- The set-up with another material. -/
def withMaterial (R : Setup d) (m' : Material) : Setup d := { R with m := m' }

lemma swap_lists {α β γ : Type*} {S : γ → α → Prop} {G : γ → β → Prop} {F : α → β → Prop} {l : List γ} {ss : List α}
    {ys : List β} (h1 : List.Forall₂ S l ss) (h2 : List.Forall₂ G l ys) (h : ∀ p a b, S p a → G p b → F a b) :
    List.Forall₂ F ss ys :=
  (forall₂_trans h1.flip h2).imp fun a b ⟨p, ha, hb⟩ => h p a b ha hb

/-- If the updates of two materials are undefined together and agree whenever the first has a `Good` result, and the
results of a step of the first are `Good`, then the steps agree. -/
lemma physStep_swap (hn : ∀ q, plasticUpdate R dt q = none → plasticUpdate (withMaterial R m') dt q = none)
    (hs : ∀ p q r x v, Handed R p q → plasticUpdate R dt q = some r → Good p { r.1 with x := x, v := v } →
      plasticUpdate (withMaterial R m') dt q = some r)
    (hg : ∀ w' ex, physStep R w dt grav time n = some (w', ex) → List.Forall₂ Good w.ps w'.ps) :
    physStep (withMaterial R m') w dt grav time n = physStep R w dt grav time n := by
  have hS : (withMaterial R m').S = R.S := rfl
  have hsched : (withMaterial R m').sched = R.sched := rfl
  have hops : (withMaterial R m').ops = R.ops := rfl
  have hobjs : (withMaterial R m').objs = R.objs := rfl
  have hCC : (withMaterial R m').C = R.C := rfl
  generalize withMaterial R m' = R' at *
  unfold physStep at hg ⊢
  simp only [Option.bind_eq_bind, hS, hsched, hops, hobjs, hCC] at hg ⊢
  cases h1 : chooseGrid R.S ⟨w.ps, w.box, w.g, n⟩ with
  | none => simp only [Option.bind_none, Option.map_none]
  | some bg =>
  simp only [Option.bind_some, h1] at hg ⊢
  by_cases hm : R.S.P.useMibf = true ∧
      (if R.S.pbc = true then ghosts R.S.P.dx (R.S.L 0) 4 w.ps else []) ≠ []
  · simp only [if_pos hm, Option.bind_none]
  simp only [if_neg hm, Option.bind_some] at hg ⊢
  cases h2 : P2G R.S.P bg.2 (R.sched n (w.ps ++ if R.S.pbc = true then ghosts R.S.P.dx (R.S.L 0) 4 w.ps else [])) with
  | none => simp only [Option.bind_none, Option.map_none]
  | some arr =>
  simp only [Option.bind_some, h2] at hg ⊢
  generalize eulerUpdate R.S.P dt grav
    (boundaryCollision R.ops R.S.P.useMibf (fun l => (arr l).friction) dt R.objs w.plates) bg.2 arr = eu at hg ⊢
  by_cases hu : R.S.useMusl = true
  · simp only [if_pos hu] at hg ⊢
    have hg2p : g2pFull R' dt bg.2 eu w.ps = g2pFull R dt bg.2 eu w.ps := by
      unfold g2pFull
      rw [hS]
      congr 1
      funext qs
      congr 1
      funext a
      simp only [g2pFullParticle, hS, if_pos hu]
    rw [hg2p]
    cases h3 : g2pFull R dt bg.2 eu w.ps with
    | none => simp only [Option.bind_none, Option.map_none]
    | some qs =>
    simp only [Option.bind_some, h3] at hg ⊢
    cases h4 : MUSL R.S.P bg.2 (fun l => (arr l).mass) [qs.map (·.1)] with
    | none => simp only [Option.bind_none, Option.map_none]
    | some r =>
    simp only [Option.bind_some, h4] at hg ⊢
    have hdef : deformFull R' dt bg.2 r.2 r.1.flatten = deformFull R dt bg.2 r.2 r.1.flatten := by
      unfold deformFull at hg ⊢
      simp only [Option.bind_eq_bind, hS] at hg ⊢
      cases h5 : withStencils (stencilG2P R.S.P.deg R.S.P.oneOverDx bg.2) r.1.flatten with
      | none => simp only [Option.bind_none, Option.map_none]
      | some ss =>
      simp only [Option.bind_some, h5] at hg ⊢
      refine mapM_swap (fun x _ hx => hn _ hx) fun ys hys => ?_
      simp only [hys, Option.map_some, Option.bind_some, Option.some.injEq, Prod.mk.injEq, and_imp] at hg
      have hw := hg _ _ rfl rfl
      simp only [List.forall₂_map_right_iff] at hw
      simp only [MUSL, Option.bind_eq_bind, Option.bind_eq_some_iff, Option.some.injEq] at h4
      obtain ⟨_, -, rfl⟩ := h4
      simp only [g2pFull, Option.bind_eq_bind, Option.bind_eq_some_iff] at h3
      obtain ⟨ss0, h3a, h3⟩ := h3
      have hA := forall₂_trans (withStencils_forall₂ h3a) (mapM_forall₂ h3)
      have hB := withStencils_forall₂ h5
      simp only [List.map_cons, List.map_nil, List.flatten_cons, List.flatten_nil, List.append_nil,
        List.map_map, List.forall₂_map_left_iff] at hB
      refine swap_lists (forall₂_trans hA hB) hw ?_
      rintro p a b ⟨c, ⟨s1, rfl, hs1⟩, ha⟩ hb hfa
      simp only [g2pFullParticle, if_pos hu, Option.some.injEq] at hs1
      refine hs _ _ _ _ _ ⟨?_, by rw [if_pos hu]⟩ hfa hb
      subst hs1
      rw [ha]
      exact ⟨_, _, _, _, _, _, rfl⟩
    rw [hdef]
  · simp only [if_neg hu] at hg ⊢
    have hg2p : g2pFull R' dt bg.2 eu w.ps = g2pFull R dt bg.2 eu w.ps := by
      unfold g2pFull at hg ⊢
      simp only [Option.bind_eq_bind, hS] at hg ⊢
      cases h5 : withStencils (stencilG2P R.S.P.deg R.S.P.oneOverDx bg.2) w.ps with
      | none => simp only [Option.bind_none, Option.map_none]
      | some ss =>
      simp only [Option.bind_some, h5] at hg ⊢
      refine mapM_swap (fun x _ hx => ?_) fun ys hys => ?_
      · simp only [g2pFullParticle, hS, if_neg hu] at hx ⊢
        exact hn _ hx
      simp only [hys, Option.bind_some, Option.some.injEq, Prod.mk.injEq, and_imp] at hg
      have hw := hg _ _ rfl rfl
      simp only [List.forall₂_map_right_iff] at hw
      refine swap_lists (withStencils_forall₂ h5) hw ?_
      rintro p a b rfl hb hfa
      simp only [g2pFullParticle, hS, if_neg hu] at hfa ⊢
      exact hs a.1 _ _ _ _ ⟨⟨_, _, _, _, _, _, rfl⟩, by rw [if_neg hu]; rfl⟩ hfa hb
    rw [hg2p]

end step

section run
variable {d : ℕ} {R : Setup (d + 2)} {m' : Material} {i e : Bool} {fuel : ℕ} {s : LoopState (d + 2) (World (d + 2))}
  {Good : Particle (d + 2) ℝ → Particle (d + 2) ℝ → Prop}

/-- In every step that a run of `R` on `s` makes, every particle `p` before and the same particle `p'` after the step
satisfy `Good p p'`. -/
def EveryStep (R : Setup (d + 2)) (s : LoopState (d + 2) (World (d + 2)))
    (Good : Particle (d + 2) ℝ → Particle (d + 2) ℝ → Prop) : Prop :=
  ∀ k s1, Reach R.C (physics R) s.gravity (begin R s) k s1 → s1.frame < R.C.endFrame → ∀ dt g w ex,
    updateDt R.C s.gravity s1.frame s1.time (s1.w.ps.map fun p => p.v) s1.gravity = some (dt, g) →
    physStep R s1.w dt g s1.time s1.step = some (w, ex) → List.Forall₂ Good s1.w.ps w.ps

/-- Two materials that give the same steps give the same run. -/
lemma runProgram_steps (hacc : accepted i m'.elastic m'.plastic e = accepted i R.m.elastic R.m.plastic e)
    (hfill : fillMuI m' R.S.P.useMibf s.w = fillMuI R.m R.S.P.useMibf s.w)
    (hst : ∀ k s1, Reach R.C (physics R) s.gravity (begin R s) k s1 → s1.frame < R.C.endFrame → ∀ dt g,
      updateDt R.C s.gravity s1.frame s1.time (s1.w.ps.map fun p => p.v) s1.gravity = some (dt, g) →
      physStep (withMaterial R m') s1.w dt g s1.time s1.step = physStep R s1.w dt g s1.time s1.step) :
    runProgram (withMaterial R m') i e fuel s = runProgram R i e fuel s := by
  have hC : (withMaterial R m').C = R.C := rfl
  by_cases ha : accepted i R.m.elastic R.m.plastic e = true
  · have ha' : accepted i (withMaterial R m').m.elastic (withMaterial R m').m.plastic e = true := hacc.trans ha
    have hf' : fillMuI (withMaterial R m').m (withMaterial R m').S.P.useMibf s.w = fillMuI R.m R.S.P.useMibf s.w := hfill
    simp only [runProgram, ha, ha', if_true, hf']
    rw [simulate_eq ha, simulate_eq ha']
    exact loop_congr (C := R.C) (ph := physics R) (ph' := physics (withMaterial R m')) (fun w => rfl)
      (fun k s1 hr hf dt g hu => hst k s1 hr hf dt g hu) fuel 0 _ .start
  · have ha' : ¬ accepted i (withMaterial R m').m.elastic (withMaterial R m').m.plastic e = true := by
      rw [show accepted i (withMaterial R m').m.elastic (withMaterial R m').m.plastic e = _ from hacc]; exact ha
    simp only [runProgram, if_neg ha, if_neg ha']

/-- Two materials whose updates agree on all states met give the same run. -/
lemma runProgram_swap (hmin : 0 < R.C.minDt)
    (hacc : accepted i m'.elastic m'.plastic e = accepted i R.m.elastic R.m.plastic e)
    (hfill : fillMuI m' R.S.P.useMibf s.w = fillMuI R.m R.S.P.useMibf s.w)
    (hn : ∀ dt q, 0 < dt → plasticUpdate R dt q = none → plasticUpdate (withMaterial R m') dt q = none)
    (hs : ∀ dt p q r x v, 0 < dt → Handed R p q → plasticUpdate R dt q = some r → Good p { r.1 with x := x, v := v } →
      plasticUpdate (withMaterial R m') dt q = some r)
    (hg : EveryStep R s Good) : runProgram (withMaterial R m') i e fuel s = runProgram R i e fuel s := by
  refine runProgram_steps hacc hfill fun k s1 hr hf dt g hu => ?_
  have hdt : 0 < dt := lt_of_lt_of_le hmin (updateDt_ge hu)
  exact physStep_swap (fun q => hn dt q hdt) (fun p q r x v => hs dt p q r x v hdt) fun w' ex hw =>
    hg k s1 hr hf dt g w' ex hu hw

lemma physStep_swap_all {w : World (d + 2)} {dt : ℝ} {grav : Fin (d + 2) → ℝ} {time : ℝ} {n : ℕ}
    (h : plasticUpdate (withMaterial R m') dt = plasticUpdate R dt) :
    physStep (withMaterial R m') w dt grav time n = physStep R w dt grav time n := by
  have h1 : ∀ g e ps, g2pFull (withMaterial R m') dt g e ps = g2pFull R dt g e ps := by
    intro g e ps
    have : g2pFullParticle (withMaterial R m') dt g.size e = g2pFullParticle R dt g.size e := by
      funext a; simp only [g2pFullParticle, h]; rfl
    simp only [g2pFull, this]; rfl
  have h2 : ∀ g v ps, deformFull (withMaterial R m') dt g v ps = deformFull R dt g v ps := by
    intro g v ps
    have : deformFullParticle (withMaterial R m') dt g.size v = deformFullParticle R dt g.size v := by
      funext a; simp only [deformFullParticle, h]
    simp only [deformFull, this]; rfl
  simp only [physStep, h1, h2]
  rfl

/-- Two materials with the same update give the same run. -/
lemma runProgram_swap_all (hmin : 0 < R.C.minDt)
    (hacc : accepted i m'.elastic m'.plastic e = accepted i R.m.elastic R.m.plastic e)
    (hfill : fillMuI m' R.S.P.useMibf s.w = fillMuI R.m R.S.P.useMibf s.w)
    (h : ∀ dt q, 0 < dt → plasticUpdate (withMaterial R m') dt q = plasticUpdate R dt q) :
    runProgram (withMaterial R m') i e fuel s = runProgram R i e fuel s :=
  runProgram_steps hacc hfill fun k s1 hr hf dt g hu =>
    physStep_swap_all (funext fun q => h dt q (lt_of_lt_of_le hmin (updateDt_ge hu)))

end run
end
end Verif.Props
