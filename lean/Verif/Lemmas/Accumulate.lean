import Verif.Lemmas.Stencil
import Mathlib.Algebra.BigOperators.Group.List.Basic
import Mathlib.Algebra.BigOperators.Ring.Finset

set_option linter.unusedSectionVars false
set_option linter.unusedSimpArgs false

/-! The scatter loops as sums. -/

namespace Verif
open Matrix
variable {K : Type*} [Field K] [LinearOrder K] {d : ℕ}

namespace Cell

@[ext] lemma ext' {a b : Cell d K} (h1 : a.mass = b.mass) (h2 : a.v = b.v) (h3 : a.force = b.force)
    (h4 : a.friction = b.friction) : a = b := by
  cases a; cases b; simp_all

instance : Zero (Cell d K) := ⟨Cell.zero⟩
instance : Add (Cell d K) := ⟨Cell.add⟩

instance : AddCommMonoid (Cell d K) where
  nsmul := nsmulRec
  add_assoc a b c := by
    apply Cell.ext' <;> exact add_assoc _ _ _
  zero_add a := by apply Cell.ext' <;> exact zero_add _
  add_zero a := by apply Cell.ext' <;> exact add_zero _
  add_comm a b := by apply Cell.ext' <;> exact add_comm _ _

lemma add_def (a b : Cell d K) : a.add b = a + b := rfl
lemma zero_def : (Cell.zero : Cell d K) = 0 := rfl

def massHom : Cell d K →+ K where
  toFun := Cell.mass
  map_zero' := rfl
  map_add' _ _ := rfl
def vHom : Cell d K →+ (Fin d → K) where
  toFun := Cell.v
  map_zero' := rfl
  map_add' _ _ := rfl
def forceHom : Cell d K →+ (Fin d → K) where
  toFun := Cell.force
  map_zero' := rfl
  map_add' _ _ := rfl
def frictionHom : Cell d K →+ K where
  toFun := Cell.friction
  map_zero' := rfl
  map_add' _ _ := rfl

@[simp] lemma massHom_apply (a : Cell d K) : massHom a = a.mass := rfl
@[simp] lemma vHom_apply (a : Cell d K) : vHom a = a.v := rfl
@[simp] lemma forceHom_apply (a : Cell d K) : forceHom a = a.force := rfl
@[simp] lemma frictionHom_apply (a : Cell d K) : frictionHom a = a.friction := rfl

end Cell

/-- Sum of one particle's contributions at flat index `l`. -/
def oneSum {M : Type*} [AddCommMonoid M] (n : Fin d → ℕ) (s : Stencil d K)
    (f : (Fin d → Fin 4) → M) (l : ℕ) : M :=
  ∑ c, if s.weight c > cutoff ∧ flatIndex n (s.node c) = l then f c else 0

/-- Generic scatter loop. -/
lemma foldl_scatter {ι M : Type*} [AddCommMonoid M] (cond : ι → Prop) [DecidablePred cond]
    (idx : ι → ℕ) (f : ι → M) (L : List ι) (g : ℕ → M) (l : ℕ) :
    L.foldl (fun g c => if cond c then Function.update g (idx c) (g (idx c) + f c) else g) g l =
      g l + (L.map fun c => if cond c ∧ idx c = l then f c else 0).sum := by
  induction L generalizing g with
  | nil => simp
  | cons c L ih =>
    rw [List.foldl_cons, ih, List.map_cons, List.sum_cons, ← add_assoc]
    congr 1
    by_cases h : cond c
    · by_cases h2 : idx c = l
      · subst h2; simp [h]
      · simp [h, h2, Function.update_of_ne (Ne.symm h2)]
    · simp [h]

lemma sum_allIdx {M : Type*} [AddCommMonoid M] (f : (Fin d → Fin 4) → M) :
    ((allIdx d).map f).sum = ∑ c, f c := loopSum_eq_sum f

lemma depositParticle_eq (P : TransferParams K) (n : Fin d → ℕ) (g : GridArr d K)
    (q : Particle d K × Stencil d K) (l : ℕ) :
    depositParticle P n g q l = g l + oneSum n q.2 (contribution P q.1 q.2) l := by
  have := foldl_scatter (fun c => q.2.weight c > cutoff) (fun c => flatIndex n (q.2.node c))
    (contribution P q.1 q.2) (allIdx d) g l
  rw [sum_allIdx] at this
  exact this

lemma threadLocal_eq (P : TransferParams K) (n : Fin d → ℕ)
    (qs : List (Particle d K × Stencil d K)) (l : ℕ) :
    threadLocal P n qs l = (qs.map fun q => oneSum n q.2 (contribution P q.1 q.2) l).sum := by
  have gen : ∀ g : GridArr d K, qs.foldl (depositParticle P n) g l =
      g l + (qs.map fun q => oneSum n q.2 (contribution P q.1 q.2) l).sum := by
    induction qs with
    | nil => intro g; simp
    | cons q qs ih =>
      intro g
      rw [List.foldl_cons, ih, depositParticle_eq, List.map_cons, List.sum_cons, add_assoc]
  rw [threadLocal, gen]
  exact zero_add _

lemma p2gAccumulate_eq (P : TransferParams K) (n : Fin d → ℕ)
    (ts : List (List (Particle d K × Stencil d K))) (l : ℕ) :
    p2gAccumulate P n ts l =
      (ts.flatten.map fun q => oneSum n q.2 (contribution P q.1 q.2) l).sum := by
  have gen : ∀ g : GridArr d K,
      ts.foldl (fun g t => mergeThread g (threadLocal P n t)) g l =
      g l + (ts.flatten.map fun q => oneSum n q.2 (contribution P q.1 q.2) l).sum := by
    induction ts with
    | nil => intro g; simp
    | cons t ts ih =>
      intro g
      rw [List.foldl_cons, ih, mergeThread, threadLocal_eq, List.flatten_cons, List.map_append,
        List.sum_append, Cell.add_def, add_assoc]
  rw [p2gAccumulate, gen]
  exact zero_add _

/-- The velocity part of the contribution of one particle at one node. -/
def velContribution (P : TransferParams K) (p : Particle d K) (s : Stencil d K)
    (c : Fin d → Fin 4) : Fin d → K :=
  s.weight c • p.v +
    if P.flipRatio < 0 then (P.apicDinverse * s.weight c) • (p.Bmat *ᵥ (s.nodePos c - p.x)) else 0

lemma muslAccumulate_eq (P : TransferParams K) (n : Fin d → ℕ)
    (ts : List (List (Particle d K × Stencil d K))) (l : ℕ) :
    muslAccumulate P n ts l =
      (ts.flatten.map fun q => oneSum n q.2 (velContribution P q.1 q.2) l).sum := by
  have one : ∀ (q : Particle d K × Stencil d K) (g : ℕ → Fin d → K),
      (allIdx d).foldl (muslDepositAt P n q.1 q.2) g l =
        g l + oneSum n q.2 (velContribution P q.1 q.2) l := by
    intro q g
    have := foldl_scatter (fun c => q.2.weight c > cutoff) (fun c => flatIndex n (q.2.node c))
      (velContribution P q.1 q.2) (allIdx d) g l
    rw [sum_allIdx] at this
    exact this
  have thr : ∀ (t : List (Particle d K × Stencil d K)) (g : ℕ → Fin d → K),
      t.foldl (fun g ps => (allIdx d).foldl (muslDepositAt P n ps.1 ps.2) g) g l =
        g l + (t.map fun q => oneSum n q.2 (velContribution P q.1 q.2) l).sum := by
    intro t
    induction t with
    | nil => intro g; simp
    | cons q t ih =>
      intro g
      rw [List.foldl_cons, ih, one, List.map_cons, List.sum_cons, add_assoc]
  have gen : ∀ g : ℕ → Fin d → K,
      ts.foldl (fun g t => g + t.foldl
        (fun g ps => (allIdx d).foldl (muslDepositAt P n ps.1 ps.2) g) 0) g l =
      g l + (ts.flatten.map fun q => oneSum n q.2 (velContribution P q.1 q.2) l).sum := by
    induction ts with
    | nil => intro g; simp
    | cons t ts ih =>
      intro g
      rw [List.foldl_cons, ih, Pi.add_apply, thr, List.flatten_cons, List.map_append,
        List.sum_append, Pi.zero_apply, zero_add, add_assoc]
  rw [muslAccumulate, gen, Pi.zero_apply, zero_add]

/-! ### pairing with stencils -/

lemma withStencils_eq_map {st : (Fin d → K) → Option (Stencil d K)} {sf : (Fin d → K) → Stencil d K}
    {ps : List (Particle d K)} (h : ∀ p ∈ ps, st p.x = some (sf p.x)) :
    withStencils st ps = some (ps.map fun p => (p, sf p.x)) := by
  induction ps with
  | nil => rfl
  | cons p ps ih =>
    have h1 := h p (by simp)
    have h2 := ih (fun q hq => h q (by simp [hq]))
    simp only [withStencils] at h2 ⊢
    simp [List.mapM_cons, h1, h2]

lemma mapM_withStencils {st : (Fin d → K) → Option (Stencil d K)} {sf : (Fin d → K) → Stencil d K}
    {ts : List (List (Particle d K))} (h : ∀ p ∈ ts.flatten, st p.x = some (sf p.x)) :
    ts.mapM (withStencils st) = some (ts.map fun t => t.map fun p => (p, sf p.x)) := by
  induction ts with
  | nil => rfl
  | cons t ts ih =>
    have h1 := withStencils_eq_map (st := st) (sf := sf) (ps := t) (fun p hp => h p (by simp [hp]))
    have h2 := ih (fun q hq => h q (by simp only [List.flatten_cons, List.mem_append]; right; exact hq))
    simp [List.mapM_cons, h1, h2]

/-- A sum over all flat indices below the grid size of anything additive in the node's cell. -/
lemma sum_oneSum {M M' : Type*} [AddCommMonoid M] [AddCommMonoid M'] {n : Fin d → ℕ}
    {s : Stencil d K} (hs : ∀ c, flatIndex n (s.node c) < gridNodes n)
    (f : (Fin d → Fin 4) → M) (F : ℕ → M →+ M') :
    ∑ l ∈ Finset.range (gridNodes n), F l (oneSum n s f l) =
      ∑ c, if s.weight c > cutoff then F (flatIndex n (s.node c)) (f c) else 0 := by
  simp only [oneSum, map_sum]
  rw [Finset.sum_comm]
  refine Finset.sum_congr rfl fun c _ => ?_
  by_cases h : s.weight c > cutoff
  · simp only [h, true_and, if_true]
    rw [Finset.sum_eq_single (flatIndex n (s.node c))]
    · simp
    · intro l _ hl; simp [Ne.symm hl]
    · intro hl; exact absurd (Finset.mem_range.mpr (hs c)) hl
  · simp [h]

lemma sum_listSum {ι M : Type*} [AddCommMonoid M] (L : List ι) (S : Finset ℕ) (f : ℕ → ι → M) :
    ∑ l ∈ S, (L.map (f l)).sum = (L.map fun q => ∑ l ∈ S, f l q).sum := by
  induction L with
  | nil => simp
  | cons q L ih => simp [Finset.sum_add_distrib, ih]

end Verif
