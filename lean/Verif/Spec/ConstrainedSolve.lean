import Verif.Model.ConstrainedSolve
import Verif.Spec.AssemblerUtilities
import Mathlib.Algebra.BigOperators.Group.Finset.Basic
import Mathlib.Data.Fintype.Basic
import Mathlib.Order.Defs.PartialOrder
/-
Specification: the Galerkin problem in the space with constraints.
-/
namespace Verif.ConstrainedSolve
open Constraints Assembly

variable {I F : Type} [DecidableEq I] [CommRing F]

/-- The values at linearly constrained degrees of freedom (e.g. at hanging nodes) are the combinations that the constraints prescribe. -/
def Conforming (t : Trafo I F) (x : I → F) : Prop :=
  ∀ k row, (k, row) ∈ t.rows → row ≠ [] → x k = (row.map fun e => e.2 * x e.1).sum

/-- The test functions: they also vanish at the Dirichlet degrees of freedom. -/
def Homogeneous (t : Trafo I F) (w : I → F) : Prop := Conforming t w ∧ ∀ k, t.Dirichlet k → w k = 0

/-- A constraints container: one row for each constrained degree of freedom, the flag is set if some row has coefficients, and the
coefficients are for degrees of freedom that are unconstrained or Dirichlet constrained. -/
structure Admissible (t : Trafo I F) : Prop where
  keys : (t.rows.map Prod.fst).Nodup
  flag : FlagValid t
  chains : ∀ k row, (k, row) ∈ t.rows → ∀ e ∈ row, ∀ row', (e.1, row') ∈ t.rows → row' = []

/-- The local operator is affine: its residual is a matrix times the coefficients plus a load, and its Jacobian is the matrix. -/
def Affine (p : Part I F) (A : Nat → Nat → F) (b : Nat → F) : Prop :=
  ∀ x : Nat → F, p.jacobian x = A ∧ ∀ i < p.nv, p.residual x i = b i + ((List.range p.nu).map fun j => A i j * x j).sum

/-- The residual form `a(x,w) - l(w)` of the method: the local residuals tested with `w`. -/
def form (parts : List (Part I F)) (x w : I → F) : F :=
  (parts.map fun p => ((List.range p.nv).map fun i => w (p.v i) * p.residual (fun j => x (p.u j)) i).sum).sum

/-- `x` solves the discrete problem. -/
def Galerkin (t : Trafo I F) (parts : List (Part I F)) (x : I → F) : Prop :=
  Conforming t x ∧ ∀ w, Homogeneous t w → form parts x w = 0

/-- The bilinear form `a(x,w)`. -/
def bilinear (parts : List (Part I F)) (x w : I → F) : F := form parts x w - form parts (fun _ => 0) w

/-- The homogeneous problem has only the trivial solution. -/
def Regular (t : Trafo I F) (parts : List (Part I F)) : Prop :=
  ∀ y, Homogeneous t y → (∀ w, Homogeneous t w → bilinear parts y w = 0) → ∀ k, y k = 0

/-- The energy `a(x,x) - 2 l(x)`. -/
def energy (parts : List (Part I F)) (x : I → F) : F := bilinear parts x x + 2 * form parts (fun _ => 0) x

/-- The linear solver solves every system that has a solution. -/
def Exact [Fintype I] (solve : Matrix I F → (I → F) → I → F) : Prop :=
  ∀ m r, (∃ z : I → F, ∀ i, ∑ c, m.val i c * z c = r i) → ∀ i, ∑ c, m.val i c * solve m r c = r i

/-- What the pattern must contain: every entry of a local Jacobian, and the diagonal entries of constrained degrees of freedom. -/
structure PatternFits (t : Trafo I F) (pattern : List (PatternPart I)) (parts : List (Part I F)) : Prop where
  valid : ∀ q ∈ pattern, q.Valid
  covered : ∀ x : I → F, Covered pattern (parts.map fun p => p.matrix x)
  diagonal : ∀ k, t.Constrained k → ∃ q ∈ pattern, ∃ l ∈ q.links, q.v l.1 = k ∧ q.u l.2 = k

end Verif.ConstrainedSolve
