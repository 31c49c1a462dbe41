import Verif.Model.NumericalJacobian
import Mathlib.Algebra.BigOperators.Group.List.Basic
import Mathlib.Algebra.Order.Field.Basic
/-
Vocabulary for numerical Jacobians (C49, C84) and residuals based on Jacobians (C50).
-/
namespace Verif.NumericalJacobian.Spec

variable {K : Type} [Field K]

/-- The value of the residual in position `p`: the sum of what the local operator accumulates there. -/
def value {A : Type} [DecidableEq A] (calls : List (A × K)) (p : A) : K := ((calls.filter fun c => c.1 = p).map fun c => c.2).sum

/-- All positions are inside of a residual of size `n`. -/
def Inside (n : Nat) (calls : List (Nat × K)) : Prop := ∀ c ∈ calls, c.1 < n

/-- Local indices that are distinct and inside of a container of size `n`. -/
def Indices (n : Nat) (lfs : List Nat) : Prop := lfs.Nodup ∧ ∀ i ∈ lfs, i < n

variable [LinearOrder K] [IsStrictOrderedRing K]

/-- The step for coefficient `j`. -/
def stepSize (eps : K) (x : List K) (j : Nat) : K := eps * (1 + |x.getD j 0|)

/-- The coefficients with a disturbed entry. -/
def disturbed (eps : K) (x : List K) (j : Nat) : List K := x.set j (x.getD j 0 + stepSize eps x j)

/-- The forward difference quotient of a function of the coefficients for coefficient `j`. -/
def quotient (eps : K) (F : List K → K) (x : List K) (j : Nat) : K := (F (disturbed eps x j) - F x) / stepSize eps x j

/-- The function is affine on vectors of size `n`, with gradient `a`. -/
def Affine (n : Nat) (F : List K → K) (a : Nat → K) : Prop :=
  ∃ b, ∀ u : List K, u.length = n → F u = b + ((List.range n).map fun q => a q * u.getD q 0).sum

/-- `m'` is `m` with `v i j` added to the entries of the rows `is` and columns `js`. -/
def Added (m m' : LocalContainers.LocalMatrix K) (is js : List Nat) (v : Nat → Nat → K) : Prop :=
  m'.rows = m.rows ∧ m'.cols = m.cols ∧ m'.container.length = m.container.length ∧
    ∀ i j, i < m.rows → j < m.cols → m'.get? i j = (m.get? i j).map (· + if i ∈ is ∧ j ∈ js then v i j else 0)

/-- `y'` is `y` with `v i` added to the entries `is`. -/
def AddedVec (y y' : List K) (is : List Nat) (v : Nat → K) : Prop :=
  y'.length = y.length ∧ ∀ i, i < y.length → y'[i]? = (y[i]?).map (· + if i ∈ is then v i else 0)

end Verif.NumericalJacobian.Spec
