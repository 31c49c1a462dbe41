import Verif.Model.Constraints
import Verif.Model.ParallelSolvers
/-
Model of the convenience classes for grids and function spaces.

Source: /repo/dune/pdelab/boilerplate/pdelab.hh.

Simplifications: the vector of a process is a function of the flat position, the vectors of all processes are taken together (`Vecs`). The messages of the
communication and the ranks of the parallel helper are parameters. Numbers are elements of an ordered field.
-/
namespace Verif.Boilerplate

open Verif.ParallelHelper Verif.ParallelSolvers Verif.Constraints

/-- The solver category of a space (backend/common/interface.hh), boilerplate/pdelab.hh:441-574 and 822-883. -/
inductive Category where
  | sequential
  | nonoverlapping
  | overlapping
  deriving DecidableEq

section
variable {K : Type} [CommRing K]

/-- boilerplate/pdelab.hh:543-552 and 871-880 (overlapping): foreign DOFs are set to zero, then the vector is added up on the InteriorBorder_All
interface if there are several processes. Lines 465-466, 491-492, 517-518, 570-571, 837-838 and 854-855 (other categories): nothing. -/
def makeConsistent (cat : Category) (L : Layout) (msgs : List Message) (ranks : Nat → List Nat) (x : Vecs K) : Option (Vecs K) :=
  match cat with
  | .overlapping =>
    let x : Vecs K := fun p => maskForeign ranks p (x p)
    if L.procs > 1 then communicate scatterAdd msgs x else some x
  | _ => some x

/-- The constraints of all processes. Source: boilerplate/pdelab.hh:603, 692. -/
abbrev Constraints (K : Type) := Nat → Trafo Nat K

/-- `setConstrainedDOFS`, boilerplate/pdelab.hh:663-667 (also 782-786, 952-956, 1052-1056, 1147-1151), called on all processes. -/
def setConstrainedDOFS (cat : Category) (L : Layout) (msgs : List Message) (ranks : Nat → List Nat) (cc : Constraints K) (x : Vecs K) (nt : K) :
    Option (Vecs K) :=
  makeConsistent cat L msgs ranks fun p => setConstrained (cc p) nt (x p)

/-- `setNonConstrainedDOFS`, boilerplate/pdelab.hh:669-673. -/
def setNonConstrainedDOFS (cat : Category) (L : Layout) (msgs : List Message) (ranks : Nat → List Nat) (cc : Constraints K) (x : Vecs K) (nt : K) :
    Option (Vecs K) :=
  makeConsistent cat L msgs ranks fun p => setNonconstrained (cc p) nt (x p)

/-- `copyConstrainedDOFS`, boilerplate/pdelab.hh:675-679. -/
def copyConstrainedDOFS (cat : Category) (L : Layout) (msgs : List Message) (ranks : Nat → List Nat) (cc : Constraints K) (xin xout : Vecs K) :
    Option (Vecs K) :=
  makeConsistent cat L msgs ranks fun p => copyConstrained (cc p) (xin p) (xout p)

/-- `copyNonConstrainedDOFS`, boilerplate/pdelab.hh:681-685. -/
def copyNonConstrainedDOFS (cat : Category) (L : Layout) (msgs : List Message) (ranks : Nat → List Nat) (cc : Constraints K) (xin xout : Vecs K) :
    Option (Vecs K) :=
  makeConsistent cat L msgs ranks fun p => copyNonconstrained (cc p) (xin p) (xout p)

end

/-! ### Grids -/

section
variable {K : Type} [Field K] [LinearOrder K]

/-- The kinds of elements one can ask for. Source: boilerplate/pdelab.hh:100-145. -/
inductive MeshType where
  | cube
  | simplex
  | other
  deriving DecidableEq

/-- The arguments of the constructor of `YaspGrid`: the upper right corner (the lower left one is the origin), the numbers of cells, the periodic
directions and the overlap. Source: boilerplate/pdelab.hh:197-268. -/
structure YaspArgs (K : Type) where
  upper : List K
  cells : List Nat
  periodic : List Bool
  overlap : Nat

/-- What is created by the `StructuredGridFactory`. Source: boilerplate/pdelab.hh:106-143. -/
structure FactoryArgs (K : Type) where
  type : MeshType
  lower : List K
  upper : List K
  cells : List Nat

/-- boilerplate/pdelab.hh:120-150 (for `dim = dimworld`): `none` is the exception. -/
def structuredGrid (type : MeshType) (lower upper : List K) (cells : List Nat) : Option (FactoryArgs K) :=
  match type with
  | .cube => some ⟨.cube, lower, upper, cells⟩
  | .simplex => some ⟨.simplex, lower, upper, cells⟩
  | .other => none

/-- boilerplate/pdelab.hh:100-117. -/
def structuredUnitCube (dim : Nat) (type : MeshType) (cells : Nat) : Option (FactoryArgs K) :=
  structuredGrid type (List.replicate dim 0) (List.replicate dim 1) (List.replicate dim cells)

/-- boilerplate/pdelab.hh:228-232  the check of the lower left corner, in the order of the directions; `false` is the exception. -/
def checkOrigin (eps : K) : List (K × K) → Bool
  | [] => true
  | (l, u) :: r => if |l| > |u| * eps then false else checkOrigin eps r

/-- boilerplate/pdelab.hh:253-281  constructor with periodicity. The type of the elements is ignored (with a message). `eps` is `1e-10`. The numbers of
cells are converted from `unsigned int` to `int`; the model does not. -/
def yaspPeriodic (eps : K) (_type : MeshType) (lower upper : List K) (cells : List Nat) (periodic : List Bool) (overlap : Nat) : Option (YaspArgs K) :=
  if checkOrigin eps (lower.zip upper) then some ⟨upper, cells, periodic, overlap⟩ else none

/-- boilerplate/pdelab.hh:223-250. -/
def yaspSized (eps : K) (_type : MeshType) (lower upper : List K) (cells : List Nat) (overlap : Nat) : Option (YaspArgs K) :=
  if checkOrigin eps (lower.zip upper) then some ⟨upper, cells, List.replicate upper.length false, overlap⟩ else none

/-- boilerplate/pdelab.hh:207-220. -/
def yaspUnitCube (dim : Nat) (_type : MeshType) (cells overlap : Nat) : YaspArgs K :=
  ⟨List.replicate dim 1, List.replicate dim cells, List.replicate dim false, overlap⟩

end

end Verif.Boilerplate
