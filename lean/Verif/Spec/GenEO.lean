import Verif.Model.GenEO
import Verif.Spec.ParallelSolvers
/-
Vocabulary for the two-level Schwarz preconditioner (C148-C151). A coarse basis function is a vector of one process, extended by zero.
-/
namespace Verif.GenEO.Spec

open Verif.ParallelHelper Verif.ParallelSolvers Verif.ParallelSolvers.Spec Verif.GenEO

/-- The global vector that is `v` on process `p` and zero at all DOFs the process does not have. -/
def extend {K : Type} [CommRing K] (L : Layout) (p : Nat) (v : Nat → K) (e k : Nat) : K := (pos L all p e k).elim 0 v

/-- `Uᵀ M V` for global vectors. -/
def energy {K : Type} [CommRing K] (ents : List Nat) (ndof : Nat → Nat) (M : Nat → Nat → Nat → Nat → K) (U V : Nat → Nat → K) : K :=
  sumDofs ents ndof fun e k => U e k * globalMv ents ndof M V e k

/-- Two processes have a copy of the same entity. -/
def Share (L : Layout) (p q : Nat) : Prop := ∃ c ∈ L.copies p, ∃ c' ∈ L.copies q, c.ent = c'.ent

/-- The list of neighbours of every process has distinct other processes, among them all that share an entity with it. -/
structure Neighbours (L : Layout) (nb : Nat → List Nat) : Prop where
  nodup : ∀ p, p < L.procs → (nb p).Nodup
  ranks : ∀ p, p < L.procs → ∀ q ∈ nb p, q < L.procs ∧ q ≠ p
  all : ∀ p q, p < L.procs → q < L.procs → p ≠ q → Share L p q → q ∈ nb p

/-- The coarse basis vectors vanish at the constrained DOFs (those on the boundaries of the subdomains and on the Dirichlet boundary). -/
def Vanishing {K : Type} [Zero K] (L : Layout) (cc : Nat → List Nat) (B : Basis K) : Prop := ∀ p, p < L.procs → ∀ v ∈ B p, ∀ i ∈ cc p, v i = 0

/-- The number of a coarse basis function: all functions of the lower ranks come first. -/
def number {K : Type} (B : Basis K) (p a : Nat) : Nat := ∑ q ∈ Finset.range p, (B q).length + a

/-- The DOF `(e,k)` is on process `p`. -/
def OnProcess (L : Layout) (p e k : Nat) : Prop := ∃ c ∈ L.copies p, c.ent = e ∧ k < c.dofs.length

end Verif.GenEO.Spec
