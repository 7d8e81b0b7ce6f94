import Verif.Props.Limits
import Verif.Props.OwnFriction

set_option linter.unusedSectionVars false
set_option linter.unusedSimpArgs false
set_option linter.unusedVariables false

/-!
# What a run remembers of a particle
-/

namespace Verif.Props
open Verif Matrix
noncomputable section

variable {d : ℕ}

/-! ### Specification -/

/-- Which of the accumulated plastic strains are kept: shear strain, volumetric strain, volume correction; and whether the
friction coefficient is kept. -/
structure Keep where
  dev : Bool
  vol : Bool
  corr : Bool
  mu : Bool

/-- A particle without the saved rate and viscosity, and without the accumulated strains and the friction coefficient if
they are not kept. -/
def kept (κ : Keep) (p : Particle d ℝ) : Particle d ℝ :=
  { p with deltaGamma := 0, viscosity := 0, muI := if κ.mu then p.muI else 0, epsPlDev := if κ.dev then p.epsPlDev else 0,
           epsPlVol := if κ.vol then p.epsPlVol else 0, epsPlVolPradhana := if κ.corr then p.epsPlVolPradhana else 0 }

/-- A world whose particles are `kept`. -/
def keptWorld (κ : Keep) (w : World d) : World d := { w with ps := w.ps.map (kept κ) }

/-! ### one update -/

section update
variable {q q' : Particle d ℝ}

lemma kept_fields {κ : Keep} (h : kept κ q' = kept κ q) : ∃ g v i a b c, q' =
    { q with deltaGamma := g, viscosity := v, muI := if κ.mu then q.muI else i, epsPlDev := if κ.dev then q.epsPlDev else a,
             epsPlVol := if κ.vol then q.epsPlVol else b, epsPlVolPradhana := if κ.corr then q.epsPlVolPradhana else c } := by
  obtain ⟨x, v, pic, fl, F, B, tau, e1, e2, e3, g, vi, mu⟩ := q
  obtain ⟨x', v', pic', fl', F', B', tau', e1', e2', e3', g', vi', mu'⟩ := q'
  simp only [kept, Particle.mk.injEq] at h
  obtain ⟨rfl, rfl, rfl, rfl, rfl, rfl, rfl, h1, h2, h3, -, -, h4⟩ := h
  refine ⟨g', vi', mu', e1', e2', e3', ?_⟩
  obtain ⟨a, b, c, d⟩ := κ
  cases a <;> cases b <;> cases c <;> cases d <;> simp_all

end update

/-! ### one step -/

lemma map_eq_cases {α β : Type*} {f : α → β} {o o' : Option α} (h : o'.map f = o.map f) :
    (o' = none ∧ o = none) ∨ ∃ a' a, o' = some a' ∧ o = some a ∧ f a' = f a := by
  cases o <;> cases o' <;> simp_all

lemma mapM_forget {α β γ δ : Type*} {f f' : α → Option β} {u : α → γ} {v : β → δ}
    (h : ∀ a a', u a' = u a → (f' a').map v = (f a).map v) : ∀ {l l' : List α}, l'.map u = l.map u →
      (l'.mapM f').map (List.map v) = (l.mapM f).map (List.map v) := by
  intro l
  induction l with
  | nil => intro l' hl; rw [List.map_nil, List.map_eq_nil_iff] at hl; rw [hl]; rfl
  | cons a l ih =>
    intro l' hl
    cases l' with
    | nil => cases hl
    | cons a' l' =>
      rw [List.map_cons, List.map_cons, List.cons.injEq] at hl
      rw [List.mapM_cons, List.mapM_cons]
      rcases map_eq_cases (h a a' hl.1) with ⟨h1, h2⟩ | ⟨b', b, h1, h2, hb⟩
      · rw [h1, h2]; rfl
      · rw [h1, h2]
        rcases map_eq_cases (ih hl.2) with ⟨h3, h4⟩ | ⟨c', c, h3, h4, hc⟩
        · rw [h3, h4]; rfl
        · rw [h3, h4]
          show some _ = some _
          rw [List.map_cons, List.map_cons, hb, hc]

section step
variable {κ : Keep}

lemma withStencils_kept {st : (Fin d → ℝ) → Option (Stencil d ℝ)} {ps ps' : List (Particle d ℝ)}
    (h : ps'.map (kept κ) = ps.map (kept κ)) :
    (withStencils st ps').map (List.map (Prod.map (kept κ) id)) = (withStencils st ps).map (List.map (Prod.map (kept κ) id)) := by
  unfold withStencils
  refine mapM_forget (u := kept κ) (fun p p' hp => ?_) h
  have hx : p'.x = p.x := by obtain ⟨_, _, _, _, _, _, rfl⟩ := kept_fields hp; rfl
  rw [hx, Option.map_map, Option.map_map]
  congr 1
  funext s
  simp [hp]

lemma contribution_kept {P : TransferParams ℝ} (hP : P.useMibf = true → κ.mu = true) {p p' : Particle d ℝ} (h : kept κ p' = kept κ p)
    (s : Stencil d ℝ) (j : Fin d → Fin 4) : contribution P p' s j = contribution P p s j := by
  obtain ⟨_, _, _, _, _, _, rfl⟩ := kept_fields h
  by_cases hm : P.useMibf = true
  · simp only [contribution, hP hm, if_true]
  · simp only [contribution, if_neg hm]

lemma foldl_forget {α β γ : Type*} {f : β → α → β} {u : α → γ} (h : ∀ x a a', u a' = u a → f x a' = f x a) :
    ∀ {l l' : List α} (x : β), l'.map u = l.map u → l'.foldl f x = l.foldl f x := by
  intro l
  induction l with
  | nil => intro l' x hl; rw [List.map_nil, List.map_eq_nil_iff] at hl; rw [hl]
  | cons a l ih =>
    intro l' x hl
    cases l' with
    | nil => cases hl
    | cons a' l' =>
      rw [List.map_cons, List.map_cons, List.cons.injEq] at hl
      rw [List.foldl_cons, List.foldl_cons, h x a a' hl.1]
      exact ih _ hl.2

lemma P2G_kept {P : TransferParams ℝ} (hP : P.useMibf = true → κ.mu = true) (g : Axes d ℝ) {ts ts' : List (List (Particle d ℝ))}
    (h : ts'.map (List.map (kept κ)) = ts.map (List.map (kept κ))) : P2G P g ts' = P2G P g ts := by
  unfold P2G
  simp only [Option.bind_eq_bind]
  rcases map_eq_cases (mapM_forget (f := withStencils (stencilP2G P.deg P.oneOverDx g))
    (f' := withStencils (stencilP2G P.deg P.oneOverDx g)) (u := List.map (kept κ)) (v := List.map (Prod.map (kept κ) id))
    (fun a a' ha => withStencils_kept ha) h) with ⟨h1, h2⟩ | ⟨c', c, h1, h2, hc⟩
  · rw [h1, h2]
  · rw [h1, h2]
    simp only [Option.bind_some]
    have : p2gAccumulate P g.size c' = p2gAccumulate P g.size c := by
      unfold p2gAccumulate
      refine foldl_forget (u := List.map (Prod.map (kept κ) id)) (fun x t t' ht => ?_) _ hc
      congr 1
      unfold threadLocal
      refine foldl_forget (u := Prod.map (kept κ) id) (fun x p p' hp => ?_) _ ht
      obtain ⟨p, s⟩ := p
      obtain ⟨p', s'⟩ := p'
      simp only [Prod.map, id_eq, Prod.mk.injEq] at hp
      obtain ⟨hp, rfl⟩ := hp
      unfold depositParticle
      congr 1
      funext x j
      simp only [depositAt, contribution_kept hP hp]
    rw [this]

lemma MUSL_kept (P : TransferParams ℝ) (g : Axes d ℝ) (mass : ℕ → ℝ) {l l' : List (Particle d ℝ)}
    (h : l'.map (kept κ) = l.map (kept κ)) :
    (MUSL P g mass [l']).map (Prod.map (List.map (List.map (kept κ))) id) =
      (MUSL P g mass [l]).map (Prod.map (List.map (List.map (kept κ))) id) := by
  unfold MUSL
  simp only [Option.bind_eq_bind, List.map_cons, List.map_nil]
  have e : (l'.map fun p => ({ p with v := blendVelocity P p } : Particle d ℝ)).map (kept κ) =
      (l.map fun p => ({ p with v := blendVelocity P p } : Particle d ℝ)).map (kept κ) := by
    have : ∀ l : List (Particle d ℝ), (l.map fun p => ({ p with v := blendVelocity P p } : Particle d ℝ)).map (kept κ) =
        (l.map (kept κ)).map fun p => ({ p with v := blendVelocity P p } : Particle d ℝ) := by
      intro l; rw [List.map_map, List.map_map]; rfl
    rw [this, this, h]
  generalize (l'.map fun p => ({ p with v := blendVelocity P p } : Particle d ℝ)) = k' at e ⊢
  generalize (l.map fun p => ({ p with v := blendVelocity P p } : Particle d ℝ)) = k at e ⊢
  rcases map_eq_cases (mapM_forget (f := withStencils (stencilP2G P.deg P.oneOverDx g))
    (f' := withStencils (stencilP2G P.deg P.oneOverDx g)) (u := List.map (kept κ)) (v := List.map (Prod.map (kept κ) id))
    (fun a a' ha => withStencils_kept ha) (l := [k]) (l' := [k']) (by simp [e])) with ⟨h1, h2⟩ | ⟨c', c, h1, h2, hc⟩
  · rw [h1, h2]; rfl
  · rw [h1, h2]
    simp only [Option.bind_some, Option.map_some, Prod.map, id_eq, Option.some.injEq, Prod.mk.injEq, List.map_cons, List.map_nil, e,
      true_and]
    have : muslAccumulate P g.size c' = muslAccumulate P g.size c := by
      unfold muslAccumulate
      refine foldl_forget (u := List.map (Prod.map (kept κ) id)) (fun x t t' ht => ?_) _ hc
      congr 1
      refine foldl_forget (u := Prod.map (kept κ) id) (fun x p p' hp => ?_) _ ht
      obtain ⟨p, s⟩ := p
      obtain ⟨p', s'⟩ := p'
      simp only [Prod.map, id_eq, Prod.mk.injEq] at hp
      obtain ⟨hp, rfl⟩ := hp
      obtain ⟨_, _, _, _, _, _, rfl⟩ := kept_fields hp
      rfl
    rw [this]

lemma ghosts_kept (dx Lx : ℝ) (sf : ℕ) (ps : List (Particle (d + 1) ℝ)) :
    (ghosts dx Lx sf ps).map (kept κ) = ghosts dx Lx sf (ps.map (kept κ)) := by
  unfold ghosts
  rw [List.map_filterMap, List.filterMap_map]
  congr 1
  funext p
  simp only [Function.comp_def, Option.map_map]
  rfl

lemma sched_kept {R : Setup d} (hR : ∀ k ps, (R.sched k ps).flatten.Perm ps) (hmi : R.S.P.useMibf = true → κ.mu = true) (g : Axes d ℝ) (n : ℕ)
    {ps ps' : List (Particle d ℝ)} (h : ps'.map (kept κ) = ps.map (kept κ)) :
    P2G R.S.P g (R.sched n ps') = P2G R.S.P g (R.sched n ps) := by
  have h1 : ∀ ps, P2G R.S.P g (R.sched n ps) = P2G R.S.P g [ps] := fun ps =>
    C03_p2g _ _ _ _ (by simpa using hR n ps)
  rw [h1, h1]
  exact P2G_kept (κ := κ) hmi g (by simp [h])

variable {m' : Material} {dt : ℝ}

/-- The updates of two materials agree except for what `kept` leaves out. -/
def KeptSame (κ : Keep) (R R' : Setup d) (dt : ℝ) : Prop := ∀ q q' : Particle d ℝ, kept κ q' = kept κ q →
  (plasticUpdate R' dt q').map (Prod.map (kept κ) id) = (plasticUpdate R dt q).map (Prod.map (kept κ) id)

lemma g2pFull_kept {R : Setup d} (H : KeptSame κ R (withMaterial R m') dt) (g : Axes d ℝ) (e : EulerArr d ℝ)
    {ps ps' : List (Particle d ℝ)} (h : ps'.map (kept κ) = ps.map (kept κ)) :
    (g2pFull (withMaterial R m') dt g e ps').map (List.map (Prod.map (kept κ) id)) =
      (g2pFull R dt g e ps).map (List.map (Prod.map (kept κ) id)) := by
  unfold g2pFull
  have hS : (withMaterial R m').S = R.S := rfl
  simp only [Option.bind_eq_bind, hS]
  rcases map_eq_cases (withStencils_kept (st := stencilG2P R.S.P.deg R.S.P.oneOverDx g) h) with ⟨h1, h2⟩ | ⟨c', c, h1, h2, hc⟩
  · rw [h1, h2]; simp only [Option.bind_none, Option.map_none]
  · rw [h1, h2]
    simp only [Option.bind_some]
    refine mapM_forget (u := Prod.map (kept κ) id) (fun p p' hp => ?_) hc
    obtain ⟨p, s⟩ := p
    obtain ⟨p', s'⟩ := p'
    simp only [Prod.map, id_eq, Prod.mk.injEq] at hp
    obtain ⟨hp, rfl⟩ := hp
    obtain ⟨_, _, _, _, _, _, rfl⟩ := kept_fields hp
    simp only [g2pFullParticle, hS]
    by_cases hu : R.S.useMusl = true
    · simp only [if_pos hu, Option.map_some, Option.some.injEq, Prod.map, id_eq, Prod.mk.injEq, and_true]
      obtain ⟨a, b, c, d⟩ := κ; cases a <;> cases b <;> cases c <;> cases d <;> rfl
    · simp only [if_neg hu]
      refine H _ _ ?_
      obtain ⟨a, b, c, d⟩ := κ; cases a <;> cases b <;> cases c <;> cases d <;> rfl

lemma deformFull_kept {R : Setup d} (H : KeptSame κ R (withMaterial R m') dt) (g : Axes d ℝ) (v : ℕ → Fin d → ℝ)
    {ps ps' : List (Particle d ℝ)} (h : ps'.map (kept κ) = ps.map (kept κ)) :
    (deformFull (withMaterial R m') dt g v ps').map (List.map (Prod.map (kept κ) id)) =
      (deformFull R dt g v ps).map (List.map (Prod.map (kept κ) id)) := by
  unfold deformFull
  have hS : (withMaterial R m').S = R.S := rfl
  simp only [Option.bind_eq_bind, hS]
  rcases map_eq_cases (withStencils_kept (st := stencilG2P R.S.P.deg R.S.P.oneOverDx g) h) with ⟨h1, h2⟩ | ⟨c', c, h1, h2, hc⟩
  · rw [h1, h2]; simp only [Option.bind_none, Option.map_none]
  · rw [h1, h2]
    simp only [Option.bind_some]
    refine mapM_forget (u := Prod.map (kept κ) id) (fun p p' hp => ?_) hc
    obtain ⟨p, s⟩ := p
    obtain ⟨p', s'⟩ := p'
    simp only [Prod.map, id_eq, Prod.mk.injEq] at hp
    obtain ⟨hp, rfl⟩ := hp
    obtain ⟨_, _, _, _, _, _, rfl⟩ := kept_fields hp
    refine H _ _ ?_
    obtain ⟨a, b, c, d⟩ := κ; cases a <;> cases b <;> cases c <;> cases d <;> rfl

lemma position_kept (P : TransferParams ℝ) (u c e : Bool) (L : ℝ) (l : List (Particle (d + 2) ℝ × Bool)) :
    (l.map fun q => positionParticle P u c e L dt q.1).map (kept κ) =
      (l.map (Prod.map (kept κ) id)).map fun q => positionParticle P u c e L dt q.1 := by
  rw [List.map_map, List.map_map]
  exact List.map_congr_left fun q _ => rfl

lemma any_kept (l : List (Particle d ℝ × Bool)) : l.any (·.2) = (l.map (Prod.map (kept κ) id)).any (·.2) := by
  rw [List.any_map]
  rfl

lemma physStep_kept {R : Setup (d + 2)} (hR : ∀ k ps, (R.sched k ps).flatten.Perm ps) (hmi : R.S.P.useMibf = true → κ.mu = true)
    (H : KeptSame κ R (withMaterial R m') dt) {w w' : World (d + 2)} (hw : keptWorld κ w' = keptWorld κ w)
    (g : Fin (d + 2) → ℝ) (t : ℝ) (n : ℕ) :
    (physStep (withMaterial R m') w' dt g t n).map (Prod.map (keptWorld κ) id) =
      (physStep R w dt g t n).map (Prod.map (keptWorld κ) id) := by
  obtain ⟨ps, box, gr, plates, mass, vel, fr⟩ := w
  obtain ⟨ps', box', gr', plates', mass', vel', fr'⟩ := w'
  simp only [keptWorld, World.mk.injEq] at hw
  obtain ⟨hps, rfl, rfl, rfl, rfl, rfl, rfl⟩ := hw
  rw [physStep_eq, physStep_eq]
  have hS : (withMaterial R m').S = R.S := rfl
  have hsc : (withMaterial R m').sched = R.sched := rfl
  have hx : (ps'.map fun p => p.x) = ps.map fun p => p.x := by
    have : ∀ l : List (Particle (d + 2) ℝ), (l.map fun p => p.x) = (l.map (kept κ)).map fun p => p.x := by
      intro l; rw [List.map_map]; rfl
    rw [this ps', this ps, hps]
  have hcg : chooseGrid R.S ⟨ps', box', gr', n⟩ = chooseGrid R.S ⟨ps, box', gr', n⟩ := by
    unfold chooseGrid
    simp only [hx]
  have hgh : (ps' ++ if R.S.pbc then ghosts R.S.P.dx (R.S.L 0) 4 ps' else []).map (kept κ) =
      (ps ++ if R.S.pbc then ghosts R.S.P.dx (R.S.L 0) 4 ps else []).map (kept κ) := by
    rw [List.map_append, List.map_append, hps]
    congr 1
    split_ifs
    · rw [ghosts_kept, ghosts_kept, hps]
    · rfl
  have hgn : ((if R.S.pbc = true then ghosts R.S.P.dx (R.S.L 0) 4 ps' else []) ≠ []) =
      ((if R.S.pbc = true then ghosts R.S.P.dx (R.S.L 0) 4 ps else []) ≠ []) := by
    split_ifs
    · have h1 := congrArg List.length (ghosts_kept (κ := κ) R.S.P.dx (R.S.L 0) 4 ps')
      have h2 := congrArg List.length (ghosts_kept (κ := κ) R.S.P.dx (R.S.L 0) 4 ps)
      rw [hps] at h1
      simp only [List.length_map] at h1 h2
      rw [← List.length_pos_iff, ← List.length_pos_iff, h1, h2]
    · rfl
  simp only [hS, hsc, hcg, hgn]
  cases chooseGrid R.S ⟨ps, box', gr', n⟩ with
  | none => simp only [Option.bind_none, Option.map_none]
  | some bg =>
    simp only [Option.bind_some]
    by_cases hg : R.S.P.useMibf = true ∧ (if R.S.pbc = true then ghosts R.S.P.dx (R.S.L 0) 4 ps else []) ≠ []
    · rw [if_pos hg, if_pos hg]
    rw [if_neg hg, if_neg hg, sched_kept hR hmi bg.2 n hgh]
    cases P2G R.S.P bg.2 (R.sched n (ps ++ if R.S.pbc = true then ghosts R.S.P.dx (R.S.L 0) 4 ps else [])) with
    | none => simp only [Option.bind_none, Option.map_none]
    | some arr =>
      simp only [Option.bind_some, afterP2G, hS]
      have hops : (withMaterial R m').ops = R.ops := rfl
      have hobjs : (withMaterial R m').objs = R.objs := rfl
      have hC : (withMaterial R m').C = R.C := rfl
      rw [hops, hobjs, hC]
      generalize eulerUpdate R.S.P dt g (boundaryCollision R.ops R.S.P.useMibf (fun l => (arr l).friction) dt R.objs plates') bg.2 arr = ev
      rcases map_eq_cases (g2pFull_kept H bg.2 ev hps) with ⟨h1, h2⟩ | ⟨qs', qs, h1, h2, hq⟩
      · rw [h1, h2]; simp only [Option.bind_none, Option.map_none]
      rw [h1, h2]
      simp only [Option.bind_some]
      have hq1 : (qs'.map (·.1)).map (kept κ) = (qs.map (·.1)).map (kept κ) := by
        have : ∀ l : List (Particle (d + 2) ℝ × Bool), (l.map (·.1)).map (kept κ) = (l.map (Prod.map (kept κ) id)).map (·.1) := by
          intro l; rw [List.map_map, List.map_map]; rfl
        rw [this qs', this qs, hq]
      have hmid : (if R.S.useMusl = true then (MUSL R.S.P bg.2 (fun l => (arr l).mass) [qs'.map (·.1)]).bind fun r =>
              (deformFull (withMaterial R m') dt bg.2 r.2 r.1.flatten).map fun qs => (qs, r.2) else some (qs', ev.v)).map
              (Prod.map (List.map (Prod.map (kept κ) id)) id) =
            (if R.S.useMusl = true then (MUSL R.S.P bg.2 (fun l => (arr l).mass) [qs.map (·.1)]).bind fun r =>
              (deformFull R dt bg.2 r.2 r.1.flatten).map fun qs => (qs, r.2) else some (qs, ev.v)).map
              (Prod.map (List.map (Prod.map (kept κ) id)) id) := by
        split_ifs
        · rcases map_eq_cases (MUSL_kept R.S.P bg.2 (fun l => (arr l).mass) hq1) with ⟨h3, h4⟩ | ⟨r', r, h3, h4, hr⟩
          · rw [h3, h4]; simp only [Option.bind_none, Option.map_none]
          · rw [h3, h4]
            obtain ⟨r1, r2⟩ := r
            obtain ⟨r1', r2'⟩ := r'
            simp only [Prod.map, id_eq, Prod.mk.injEq] at hr
            obtain ⟨hr, rfl⟩ := hr
            simp only [Option.bind_some]
            have hfl : r1'.flatten.map (kept κ) = r1.flatten.map (kept κ) := by
              rw [List.map_flatten, List.map_flatten, hr]
            rcases map_eq_cases (deformFull_kept H bg.2 r2' hfl) with ⟨h5, h6⟩ | ⟨k', k, h5, h6, hk⟩
            · rw [h5, h6]
            · rw [h5, h6]
              simp only [Option.map_some, Prod.map, id_eq, hk]
        · simp only [Option.map_some, Prod.map, id_eq, hq]
      rcases map_eq_cases hmid with ⟨h3, h4⟩ | ⟨k', k, h3, h4, hk⟩
      · rw [h3, h4]
      · rw [h3, h4]
        obtain ⟨k1, k2⟩ := k
        obtain ⟨k1', k2'⟩ := k'
        simp only [Prod.map, id_eq, Prod.mk.injEq] at hk
        obtain ⟨hk, rfl⟩ := hk
        simp only [Option.bind_some, Option.map_some, Prod.map, id_eq, keptWorld, Option.some.injEq, Prod.mk.injEq,
          World.mk.injEq, and_true, true_and]
        exact ⟨by rw [position_kept, position_kept, hk], by rw [any_kept (κ := κ) k1', any_kept (κ := κ) k1, hk]⟩

end step

/-! ### whole runs -/

section run
variable {R : Setup (d + 2)} {m : Material} {s : LoopState (d + 2) (World (d + 2))} {i e : Bool} {fuel : ℕ} {κ : Keep}

/-- The steps of `R`, forgetting what `kept` leaves out. -/
def keptPhysics (κ : Keep) (R : Setup (d + 2)) : Physics (d + 2) (World (d + 2)) where
  velocities w := w.ps.map fun p => p.v
  step w dt g t n := (physStep R w dt g t n).map (Prod.map (keptWorld κ) id)

lemma keptWorld_idem (w : World d) : keptWorld κ (keptWorld κ w) = keptWorld κ w := by
  unfold keptWorld
  congr 1
  rw [List.map_map]
  refine List.map_congr_left fun p _ => ?_
  obtain ⟨a, b, c, d⟩ := κ; cases a <;> cases b <;> cases c <;> cases d <;> rfl

lemma run_kept (hR : ∀ k ps, (R.sched k ps).flatten.Perm ps) (hmi : R.S.P.useMibf = true → κ.mu = true)
    (H : ∀ dt, KeptSame κ R R dt) (ha : accepted i R.m.elastic R.m.plastic e = true) :
    (runProgram R i e fuel s).map (keptWorld κ) id =
      loop R.C (keptPhysics κ R) s.gravity fuel
        ((startState R.C { s with w := fillMuI R.m R.S.P.useMibf s.w }).map (keptWorld κ) id) := by
  unfold runProgram
  rw [if_pos ha, simulate_eq ha]
  exact (loop_map_reach (C := R.C) (ph := physics R) (ph' := keptPhysics κ R) (f := keptWorld κ) (gf := s.gravity)
    (s0 := startState R.C { s with w := fillMuI R.m R.S.P.useMibf s.w })
    (fun w => by simp [physics, keptPhysics, keptWorld, kept, Function.comp_def])
    (fun _ s1 hr dt g t n => physStep_kept (m' := R.m) hR hmi (H dt) (keptWorld_idem s1.w) g t n) fuel 0 _ .start).symm

end run

end
end Verif.Props
