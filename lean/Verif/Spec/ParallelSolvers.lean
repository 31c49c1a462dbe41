import Verif.Model.ParallelSolvers
import Verif.Spec.ParallelHelper
/-
Vocabulary for the parallel solver backends (C136-C144). A DOF of the global space is a pair of an entity `e` and a number `k < ndof e`.
-/
namespace Verif.ParallelSolvers.Spec

open Verif.ParallelHelper Verif.ParallelSolvers

/-- All copies. -/
def all : Copy → Bool := fun _ => true

/-- The messages of a communication between different processes: one for every pair of a copy with `f` and a copy of the same entity with `g`,
in any order. `InteriorBorder_InteriorBorder` is `f = g = Copy.ib`, `InteriorBorder_All` is `f = Copy.ib`, `g = all`, `All_All` is `f = g = all`. -/
def Exchange (L : Layout) (f g : Copy → Bool) (msgs : List Message) : Prop := msgs.Nodup ∧ ∀ m, m ∈ msgs ↔
  m.src < L.procs ∧ m.dst < L.procs ∧ m.src ≠ m.dst ∧ m.sent ∈ L.copies m.src ∧ m.received ∈ L.copies m.dst ∧ m.sent.ent = m.received.ent ∧
    f m.sent = true ∧ g m.received = true

/-- All copies have all DOFs of their entity. -/
def Full (L : Layout) (ndof : Nat → Nat) : Prop := ∀ p, p < L.procs → ∀ c ∈ L.copies p, c.dofs.length = ndof c.ent

/-- Position of the DOF `(e,k)` on process `p`, if the process has a copy of the entity with `f` and with DOFs. -/
def pos (L : Layout) (f : Copy → Bool) (p e k : Nat) : Option Nat :=
  ((L.copies p).find? fun c => f c && c.ent == e).bind fun c => c.dofs[k]?

/-- The vectors of the processes are the restrictions of the global vector `X` to the copies with `f`. -/
def ConsistentOn {V : Type} (L : Layout) (f : Copy → Bool) (x : Vecs V) (X : Nat → Nat → V) : Prop :=
  ∀ p, p < L.procs → ∀ c ∈ L.copies p, f c = true → ∀ k i : Nat, c.dofs[k]? = some i → x p i = X c.ent k

/-- The global vector of which the entries of the processes at copies with `f` are the summands. -/
def total {V : Type} [AddCommMonoid V] (L : Layout) (f : Copy → Bool) (x : Vecs V) (e k : Nat) : V :=
  ∑ p ∈ Finset.range L.procs, (pos L f p e k).elim 0 (x p)

/-- The sum over all DOFs of the global space. -/
def sumDofs {V : Type} [AddCommMonoid V] (entities : List Nat) (ndof : Nat → Nat) (h : Nat → Nat → V) : V :=
  ∑ e ∈ entities.toFinset, ∑ k ∈ Finset.range (ndof e), h e k

/-- The global matrix of which the local matrices are the summands (rows and columns at copies with `f`). -/
def totalMatrix {K : Type} [CommRing K] (L : Layout) (f : Copy → Bool) (A : Nat → Nat → Nat → K) (e k e' k' : Nat) : K :=
  ∑ p ∈ Finset.range L.procs, (pos L f p e k).elim 0 fun i => (pos L f p e' k').elim 0 fun j => A p i j

/-- Product of a global matrix with a global vector. -/
def globalMv {K : Type} [CommRing K] (entities : List Nat) (ndof : Nat → Nat) (M : Nat → Nat → Nat → Nat → K) (X : Nat → Nat → K) (e k : Nat) : K :=
  sumDofs entities ndof fun e' k' => M e k e' k' * X e' k'

/-- The local matrices are assembled from the element matrices `M t` (given in global DOFs) of the cells `cells p` of the processes. The rows of
DOFs that are not constrained on a process are complete: all cells contributing to them are there (`complete`), with all their DOFs (`closed`). -/
structure Assembled {K : Type} [CommRing K] (L : Layout) (cc : Nat → List Nat) (A : Nat → Nat → Nat → K) (allCells : Finset Nat)
    (cells : Nat → Finset Nat) (M : Nat → Nat → Nat → Nat → Nat → K) : Prop where
  sub : ∀ p, p < L.procs → cells p ⊆ allCells
  entry : ∀ p, p < L.procs → ∀ e k i e' k' j, pos L all p e k = some i → i ∉ cc p → pos L all p e' k' = some j →
    A p i j = ∑ t ∈ cells p, M t e k e' k'
  complete : ∀ p, p < L.procs → ∀ e k i, pos L all p e k = some i → i ∉ cc p → ∀ t ∈ allCells, t ∉ cells p → ∀ e' k', M t e k e' k' = 0
  closed : ∀ p, p < L.procs → ∀ t ∈ cells p, ∀ e k e' k', M t e k e' k' ≠ 0 → ∃ j, pos L all p e' k' = some j

/-- The global stiffness matrix. -/
def globalMatrix {K : Type} [CommRing K] (allCells : Finset Nat) (M : Nat → Nat → Nat → Nat → Nat → K) (e k e' k' : Nat) : K :=
  ∑ t ∈ allCells, M t e k e' k'

end Verif.ParallelSolvers.Spec
