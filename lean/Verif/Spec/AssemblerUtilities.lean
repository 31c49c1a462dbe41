import Verif.Model.AssemblerUtilities
import Verif.Spec.Constraints
/-
What the assembled Jacobian is, in terms of the local matrices and of the constraints alone.
-/
namespace Verif.Assembly
open Verif.Constraints
variable {I F : Type} [DecidableEq I]

/-- How much of the test function `k` goes into the equation `r`: an unconstrained test function is its own equation, a
Dirichlet test function has no equation, a linearly constrained one is distributed with its coefficients. -/
def testWeight [Zero F] [One F] [Add F] (t : Trafo I F) (k r : I) : F :=
  match find? k t.rows with
  | none => if k = r then 1 else 0
  | some [] => 0
  | some row => coef row r

/-- How much of the unknown `c` is in the trial DOF `k`: an unconstrained DOF is its own unknown, and so is a Dirichlet DOF
(except that in symmetric mode it is dropped); a linearly constrained DOF is a combination. -/
def trialWeight [Zero F] [One F] [Add F] (t : Trafo I F) (symmetric : Bool) (k c : I) : F :=
  match find? k t.rows with
  | none => if k = c then 1 else 0
  | some [] => if symmetric then 0 else if k = c then 1 else 0
  | some row => coef row c

/-- The entry `(r,c)` of the constrained Jacobian: sum over all local matrices and all their entries. -/
def jacobianEntry [Zero F] [One F] [Add F] [Mul F] (tu tv : Trafo I F) (symmetric : Bool)
    (parts : List (JacobianPart I F)) (r c : I) : F :=
  (parts.map fun p => ((List.range p.nv).map fun i => ((List.range p.nu).map fun j =>
    testWeight tv (p.v i) r * p.A i j * trialWeight tu symmetric (p.u j) c).sum).sum).sum

/-- Every nonzero entry of a local matrix couples two DOFs that some local pattern links. -/
def Covered [Zero F] (pattern : List (PatternPart I)) (parts : List (JacobianPart I F)) : Prop :=
  ∀ p ∈ parts, ∀ i < p.nv, ∀ j < p.nu, p.A i j ≠ 0 →
    ∃ q ∈ pattern, ∃ l ∈ q.links, q.v l.1 = p.v i ∧ q.u l.2 = p.u j

/-- The links of a local pattern are between local DOFs. -/
def PatternPart.Valid (q : PatternPart I) : Prop := ∀ l ∈ q.links, l.1 < q.nv ∧ l.2 < q.nu

/-- The flag of a constraints container is set if there is a non-Dirichlet constraint (see C15). -/
def FlagValid (t : Trafo I F) : Prop := ∀ k row, (k, row) ∈ t.rows → row ≠ [] → t.nonDirichlet = true

end Verif.Assembly
