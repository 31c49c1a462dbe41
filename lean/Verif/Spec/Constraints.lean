import Verif.Model.Constraints
/-
What the contributions of the cells mean, independently of the order in which they arrive.
-/
namespace Verif.Constraints
variable {D I F : Type} [DecidableEq I]

/-- Some cell made a Dirichlet contribution (an empty row) to the DOF `k`. -/
def SomeDirichlet (cs : List (Contribution D I F)) (k : I) : Prop :=
  ∃ c ∈ cs, ∃ d, (d, []) ∈ c.rows ∧ c.index d = k

/-- Some cell made a contribution of either kind to the DOF `k`. -/
def SomeContribution (cs : List (Contribution D I F)) (k : I) : Prop :=
  ∃ c ∈ cs, ∃ d row, (d, row) ∈ c.rows ∧ c.index d = k

/-- Some cell contributed the coefficient `w` of the DOF `j` to the constraint of the DOF `k`. -/
def SomeCoefficient (cs : List (Contribution D I F)) (k j : I) (w : F) : Prop :=
  ∃ c ∈ cs, ∃ d row, (d, row) ∈ c.rows ∧ c.index d = k ∧ ∃ e, (e, w) ∈ row ∧ c.index e = j

/-- The DOF is constrained. -/
def Trafo.Constrained (cg : Trafo I F) (k : I) : Prop := ∃ row, (k, row) ∈ cg.rows

/-- The DOF is Dirichlet-constrained. -/
def Trafo.Dirichlet (cg : Trafo I F) (k : I) : Prop := (k, []) ∈ cg.rows

/-- No constraint has coefficients for constrained DOFs. -/
def Trafo.NoChains (cg : Trafo I F) : Prop :=
  ∀ k row j w, (k, row) ∈ cg.rows → (j, w) ∈ row → ¬ cg.Constrained j

/-- The coefficient that a row has for the DOF `i` (the sum of its entries for `i`). -/
def coef [Zero F] [Add F] (row : List (I × F)) (i : I) : F := (row.map fun e => if e.1 = i then e.2 else 0).sum

end Verif.Constraints
