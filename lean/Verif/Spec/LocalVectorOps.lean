import Mathlib.Algebra.BigOperators.Group.Finset.Basic
import Mathlib.Algebra.Ring.Defs
/-
Specification of the arithmetic of local vectors (C224).
-/
namespace Verif.LocalVectorOps.Spec

open Finset

variable {K : Type} [Ring K]

/-- `r` has the size of `v` and the entries `f i`. -/
def Entries (v r : List K) (f : Nat → K) : Prop := r.length = v.length ∧ ∀ i, i < v.length → r[i]? = some (f i)

/-- The Euclidean product of the first `n` entries. -/
def euclid (n : Nat) (v w : List K) : K := ∑ i ∈ range n, v.getD i 0 * w.getD i 0

end Verif.LocalVectorOps.Spec
