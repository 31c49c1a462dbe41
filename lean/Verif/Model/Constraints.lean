import Mathlib.Algebra.Ring.Defs
/-
Model of the constraints container and of the vector operations based on it.
Sources: dune/pdelab/constraints/common/constraintstransformation.hh and constraints.hh.

`std::unordered_map` is an association list with pairwise different keys; the order of the list is the
(unspecified) iteration order. Vectors are functions from container indices to values (an index is assumed to
be valid for the vector).
-/
namespace Verif.Constraints

/-- `unordered_map::find`. Source: a method of the base class, constraintstransformation.hh:17-55; used in constraintstransformation.hh:74-77. -/
def find? {K V : Type} [DecidableEq K] (k : K) : List (K × V) → Option V
  | [] => none
  | (k', v) :: m => if k' = k then some v else find? k m

/-- `m[k] = v`: overwrite, or insert a new element. Source: constraintstransformation.hh:96. -/
def assign {K V : Type} [DecidableEq K] (k : K) (v : V) : List (K × V) → List (K × V)
  | [] => [(k, v)]
  | (k', v') :: m => if k' = k then (k', v) :: m else (k', v') :: assign k v m

/-- constraintstransformation.hh:17-55, 105-109  the container: one row of coefficients for each constrained DOF (an
empty row is a Dirichlet constraint) and the flag. -/
structure Trafo (I F : Type) where
  rows : List (I × List (I × F))
  nonDirichlet : Bool
deriving Repr

/-- constraintstransformation.hh:55-57. -/
def Trafo.empty {I F : Type} : Trafo I F := ⟨[], false⟩

/-- constraintstransformation.hh:57-61  `clear()`. -/
def Trafo.clear {I F : Type} (_ : Trafo I F) : Trafo I F := ⟨[], false⟩

/-- constraintstransformation.hh:70-97  one iteration of the loop of `import_local_transformation`: `k` is the container
index of the local DOF, `row` the local row with container indices. -/
def Trafo.importOne {I F : Type} [DecidableEq I] (cg : Trafo I F) (k : I) (row : List (I × F)) : Trafo I F :=
  match find? k cg.rows with
  | some [] => cg                         -- an existing Dirichlet constraint is not modified
  | found =>
    let global := found.getD []           -- freshly inserted or existing row
    match row with
    | [] => { cg with rows := assign k [] cg.rows }
    | _ :: _ =>
      { rows := assign k (row.foldl (fun g e => assign e.1 e.2 g) global) cg.rows, nonDirichlet := true }

/-- What one cell (or one neighbour) contributes: its local constraints and the index cache.
Source: the arguments of `import_local_transformation`, constraintstransformation.hh:63-64. -/
structure Contribution (D I F : Type) where
  index : D → I
  rows : List (D × List (D × F))

/-- constraintstransformation.hh:63-98  `import_local_transformation`. -/
def Trafo.import {D I F : Type} [DecidableEq I] (cg : Trafo I F) (c : Contribution D I F) : Trafo I F :=
  c.rows.foldl (fun cg r => cg.importOne (c.index r.1) (r.2.map fun e => (c.index e.1, e.2))) cg

/-- constraints.hh:748-754  `constraints(gfs,cg)`: assembles into `cg` as it is. (The contributions are those of the
loop over the grid, constraints.hh:609-678, in the order of the calls.) -/
def assembleNoParameters {D I F : Type} [DecidableEq I] (cs : List (Contribution D I F)) (cg : Trafo I F) :
    Trafo I F := cs.foldl Trafo.import cg

/-- constraints.hh:774-781  `constraints(p,gfs,cg)`. -/
def assemble {D I F : Type} [DecidableEq I] (cs : List (Contribution D I F)) (cg : Trafo I F) :
    Trafo I F := cs.foldl Trafo.import cg.clear

/-- `xg[i] = v`. Source: constraints.hh:801. -/
def upd {I F : Type} [DecidableEq I] (x : I → F) (i : I) (v : F) : I → F := fun j => if j = i then v else x j

section Vectors
variable {I F : Type} [DecidableEq I]

/-- constraints.hh:795-802. -/
def setConstrained (cg : Trafo I F) (v : F) (x : I → F) : I → F :=
  cg.rows.foldl (fun x col => upd x col.1 v) x

/-- constraints.hh:838-846; `ne` is the comparison object. -/
def checkConstrained (ne : F → F → Bool) (cg : Trafo I F) (v : F) (x : I → F) : Bool :=
  match cg.rows.find? fun col => ne (x col.1) v with
  | some _ => false
  | none => true

/-- constraints.hh:935-940; the result is the new `xgout`. -/
def copyConstrained (cg : Trafo I F) (xin xout : I → F) : I → F :=
  cg.rows.foldl (fun x col => upd x col.1 (xin col.1)) xout

/-- constraints.hh:959-965. -/
def setNonconstrained (cg : Trafo I F) (v : F) (x : I → F) : I → F :=
  let tmp := x
  copyConstrained cg tmp (fun _ => v)

/-- constraints.hh:986-992. -/
def copyNonconstrained (cg : Trafo I F) (xin xout : I → F) : I → F :=
  let tmp := xin
  copyConstrained cg xout tmp

/-- constraints.hh:1013-1029. -/
def setShifted (cg : Trafo I F) (v : F) (x : I → F) : I → F :=
  cg.rows.foldl (fun tmp col => if col.2.length = 0 then upd tmp col.1 (x col.1) else tmp) fun _ => v

/-- constraints.hh:1035-1037  overload for unconstrained spaces. -/
def setShiftedUnconstrained (_ : F) (x : I → F) : I → F := x

/-- constraints.hh:808-812, 946-948, 971-975, 998-1002: the other overloads for unconstrained spaces. -/
def setConstrainedUnconstrained (_ : F) (x : I → F) : I → F := x
/-- constraints.hh:946-948: nothing is copied. -/
def copyConstrainedUnconstrained (_ xout : I → F) : I → F := xout
/-- constraints.hh:971-975: all entries are set. -/
def setNonconstrainedUnconstrained (v : F) (_ : I → F) : I → F := fun _ => v
/-- constraints.hh:998-1002: all entries are copied. -/
def copyNonconstrainedUnconstrained (xin _ : I → F) : I → F := xin

/-- constraints.hh:903-914  `constrain_residual`: first loop, one column. -/
def distributeCol [Mul F] [Add F] (x : I → F) (col : I × List (I × F)) : I → F :=
  col.2.foldl (fun x row => upd x row.1 (x row.1 + row.2 * x col.1)) x

/-- constraints.hh:903-914  `constrain_residual`. -/
def constrainResidual [Mul F] [Add F] [Zero F] (cg : Trafo I F) (x : I → F) : I → F :=
  cg.rows.foldl (fun x col => upd x col.1 0) (cg.rows.foldl distributeCol x)

end Vectors

end Verif.Constraints
