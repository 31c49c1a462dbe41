import Verif.Spec.ParallelSolvers
/-
Vocabulary for the parallel preconditioner of discontinuous spaces (C182).
-/
namespace Verif.AmgBackends

open Verif.ParallelHelper Verif.ParallelSolvers Verif.ParallelSolvers.Spec

variable {K : Type} [CommRing K]

/-- The defects of the processes are zero at constrained DOFs and those of the global defect elsewhere. -/
def DefectOn (L : Layout) (cc : Nat → List Nat) (d : Vecs K) (D : Nat → Nat → K) : Prop :=
  ∀ p, p < L.procs → ∀ c ∈ L.copies p, ∀ k i : Nat, c.dofs[k]? = some i → d p i = if i ∈ cc p then 0 else D c.ent k

/-- Correction of a global vector. -/
def globalCorrection (Aop Bop : (Nat → Nat → K) → Nat → Nat → K) (b y : Nat → Nat → K) : Nat → Nat → K :=
  fun e k => y e k + Bop (fun e k => b e k - Aop y e k) e k

/-- The embedding on the processes is the restriction of a global one; cells have all degrees of freedom of the subspace. -/
structure Embedding (L Lc : Layout) (P : Nat → Nat → Nat → K) (G : Nat → Nat → Nat → Nat → K) : Prop where
  entry : ∀ p, p < L.procs → ∀ e k i e' k' j, pos L all p e k = some i → pos Lc all p e' k' = some j → P p i j = G e k e' k'
  closed : ∀ p, p < L.procs → ∀ e k i e' k', pos L all p e k = some i → G e k e' k' ≠ 0 → ∃ j, pos Lc all p e' k' = some j

end Verif.AmgBackends
