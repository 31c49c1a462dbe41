import Verif.Model.Transfer
/-
Vocabulary for the properties of the transfer of solutions (C43, C78, C79, C80).
-/
namespace Verif.Transfer.Spec

variable {E X D K : Type}

/-- Element `a` is an interior cell of the old grid, or an ancestor of one such that the cell and everything between may vanish. -/
def Stored (p : Process E X D K) (a : E) : Prop :=
  ∃ c ∈ p.cellsBefore, a = c ∨
    ∃ between rest, p.backup.grid.up c = between ++ a :: rest ∧ ∀ b ∈ c :: between, p.backup.grid.mightVanish b = true

/-- `(a, v)` is the first stored entry in a chain of elements. -/
def Nearest (m : E → Option (List K)) (chain : List E) (a : E) (v : List K) : Prop :=
  ∃ before after, chain = before ++ a :: after ∧ (∀ b ∈ before, m b = none) ∧ m a = some v

/-- The values which a list of cells with local vectors `loc` has for DOF `d`. -/
def contributions [DecidableEq D] (dofs : E → List D) (loc : E → List K) (cells : List E) (d : D) : List K :=
  cells.flatMap fun e => ((dofs e).zip (loc e)).filterMap fun x => if x.1 = d then some x.2 else none

section
variable [Field K]

/-- The arithmetic mean (zero for no values). -/
def mean (l : List K) : K := l.sum / (l.length : K)

/-- The value of a linear combination of basis functions. -/
def value (coef basis : List K) : K := (List.zipWith (· * ·) coef basis).sum

/-- The local vector `coef` on element `e` stands for the functions `fs` (one per leaf of the function space tree) at the points `pts`:
the coefficients of the leaves lie one behind the other. -/
def Represents (pts : X → Prop) (e : E) : List (Leaf E X K) → List K → List (X → K) → Prop
  | [], coef, fs => coef = [] ∧ fs = []
  | l :: ls, coef, fs =>
    ∃ block rest f fs', coef = block ++ rest ∧ block.length = l.size e ∧ fs = f :: fs' ∧
      (∀ x, pts x → value block (l.phi e x) = f x) ∧ Represents pts e ls rest fs'

/-- Result of a quadrature rule. -/
def integrate (rule : List (X × K)) (f : X → K) : K := (rule.map fun p => p.2 * f p.1).sum

/-- Entry of a matrix product. -/
def product (n : Nat) (A B : Nat → Nat → K) (i j : Nat) : K := ((List.range n).map fun k => A i k * B k j).sum

end

/-- Both events occur, the first before the second. -/
def Before {α : Type} (l : List α) (a b : α) : Prop := ∃ x y z, l = x ++ a :: (y ++ b :: z)

end Verif.Transfer.Spec
