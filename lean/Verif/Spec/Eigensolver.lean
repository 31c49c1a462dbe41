import Verif.Model.Eigensolver
import Mathlib.Data.Fin.Basic
import Mathlib.Data.Fintype.BigOperators
import Mathlib.Algebra.Order.Group.Unbundled.Abs
/-
Specification of the eigensolver (C226): generalised eigenpairs of flat matrices, and what the libraries promise.
-/
namespace Verif.Eigensolver.Spec

open Finset

variable {K : Type} [Field K] {N b : Nat}

/-- The matrix without its block structure: block row and row in the block are quotient and remainder of the row. -/
def flat (M : BlockMat K N b) (k l : Fin (N * b)) : K :=
  match M k.divNat l.divNat with
  | some m => m k.modNat l.modNat
  | none => 0

/-- `A x = lambda B x`. -/
def Eigenpair (A B : BlockMat K N b) (lambda : K) (x : Flat K N b) : Prop :=
  ∀ k, ∑ l, flat A k l * x l = lambda * ∑ l, flat B k l * x l

/-- `std::sort` by a key: a permutation in ascending order of the keys. -/
def Sorts [LinearOrder K] (sort : (Nat → Nat → Bool) → List Nat → List Nat) : Prop :=
  ∀ (key : Nat → K) (l : List Nat), (sort (fun a c => decide (key a < key c)) l).Perm l ∧
    (sort (fun a c => decide (key a < key c)) l).Pairwise fun a c => key a ≤ key c

/-- The direct solver inverts the shifted matrix `A - sigma B`. -/
def Solves (solve : BlockMat K N b → Blocks K N b → Blocks K N b) (A B : BlockMat K N b) (sigma : K) : Prop :=
  ∀ S : BlockMat K N b, (∀ k l, flat S k l = flat A k l - sigma * flat B k l) →
    (∀ y I i, ∑ J, ∑ j, entry S I J i j * solve S y J j = y I i) ∧
    (∀ x, solve S (fun I i => ∑ J, ∑ j, entry S I J i j * x J j) = x)

/-- ARPACK has found so many real eigenpairs of the operator, none of them zero. -/
def Found (op : Flat K N b → Flat K N b → Flat K N b) (nev : Nat) (found : List (Raw K N b)) : Prop :=
  found.length = nev ∧ ∀ e ∈ found, e.im = 0 ∧ e.re ≠ 0 ∧ ∀ w k, op e.vec w k = e.re * e.vec k

/-- The eigenvalues found are those of largest magnitude: every other one is at most as large as each of them. -/
def Largest [LinearOrder K] (op : Flat K N b → Flat K N b → Flat K N b) (found : List (Raw K N b)) : Prop :=
  ∀ (mu : K) (x : Flat K N b), x ≠ 0 → (∀ w k, op x w k = mu * x k) → (∃ e ∈ found, e.re = mu) ∨ ∀ e ∈ found, |mu| ≤ |e.re|

end Verif.Eigensolver.Spec
