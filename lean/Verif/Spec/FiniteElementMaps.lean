import Verif.Model.FiniteElementMaps
import Mathlib.Data.Nat.Choose.Basic
/-
Specification of finite element maps.
-/
namespace Verif.FEM.Spec

/-- The subentities of the reference simplex of dimension `d`: codimension and geometry type of each. -/
def simplexSub (d : Nat) : List (Nat × GeometryType) :=
  (List.range (d + 1)).flatMap fun c => List.replicate ((d + 1).choose (d + 1 - c)) (c, gtSimplex (d - c))

/-- The subentities of the reference cube of dimension `d`. -/
def cubeSub (d : Nat) : List (Nat × GeometryType) :=
  (List.range (d + 1)).flatMap fun c => List.replicate (d.choose c * 2 ^ c) (c, gtCube (d - c))

/-- The numbers told by a finite element map are those of an element with `n` shape functions, on a reference element of dimension `d`
with the subentities `sub`: the degrees of freedom of the subentities add up to `n`, the map says that a codimension has degrees of
freedom exactly if a subentity of that codimension has some, `n` does not exceed the bound, and the map says that these numbers are
the same on all cells. -/
structure Consistent (d : Nat) (sub : List (Nat × GeometryType)) (n : Nat) (m : Sizes) : Prop where
  total : (sub.map fun s => m.size s.2).sum = n
  codims : ∀ c ≤ d, m.hasDOFs c = true ↔ ∃ s ∈ sub, s.1 = c ∧ 0 < m.size s.2
  bound : n ≤ m.maxLocalSize
  fixedSize : m.fixedSize = true

/-- `p` sorts the vertices of a cell like their indices `n`: it is a permutation of the numbers below `m` with the same order. -/
def SortsLike (m : Nat) (p : List Nat) (n : Nat → Nat) : Prop :=
  p.length = m ∧ (∀ i < m, p.getD i 0 < m) ∧ ∀ i < m, ∀ j < m, p.getD i 0 < p.getD j 0 ↔ n i < n j

/-- The order of a cell after a history of settings: the one that was set last, or the default. -/
def lastOrder (defaultP e : Nat) (history : List (Nat × Nat)) : Nat :=
  match history.reverse.find? fun q => q.1 == e with
  | some q => q.2
  | none => defaultP

end Verif.FEM.Spec
