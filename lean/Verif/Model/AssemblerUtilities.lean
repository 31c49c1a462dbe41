import Verif.Model.Constraints
/-
Model of the index cache of a local function space and of the base class of the local assemblers: pattern
assembly, scattering of local Jacobians, the treatment of constrained rows, and the transformations of vectors.
Sources: dune/pdelab/gridfunctionspace/lfsindexcache.hh, gridoperator/common/assemblerutilities.hh,
gridoperator/default/patternengine.hh, jacobianengine.hh, backend/istl/bcrsmatrix.hh.

Simplifications: rows and columns have the same container index type `I` (the overload of `add_diagonal_entry` for
different types does nothing); the local DOFs of a cache are `0..size-1` and their container indices are given; a local
matrix is a function of its local indices; the field arithmetic is exact.
-/
namespace Verif.Assembly
open Verif.Constraints

section Cache
variable {I F : Type} [DecidableEq I]

/-- lfsindexcache.hh:243-302  the state of an index cache (`_constraints_iterators` are positions in
`_constraints`). -/
structure Cache (I F : Type) where
  caching : Bool
  size : Nat
  ci : Nat → I
  constrained : Nat → Bool
  dirichlet : Nat → Bool
  constraints : List (I × F)
  range : Nat → Nat × Nat

/-- lfsindexcache.hh:293-302  constructor: all flags are zero. -/
def Cache.init (caching : Bool) (ci0 : Nat → I) : Cache I F :=
  { caching := caching, size := 0, ci := ci0, constrained := fun _ => false, dirichlet := fun _ => false,
    constraints := [], range := fun _ => (0, 0) }

/-- lfsindexcache.hh:341-364  one iteration of the loop that sets the flags; the list collects
`non_dirichlet_constrained_dofs`. -/
def Cache.flagStep (t : Trafo I F) (st : Cache I F × List (Nat × List (I × F))) (i : Nat) :
    Cache I F × List (Nat × List (I × F)) :=
  let c := st.1
  match find? (c.ci i) t.rows with
  | none => ({ c with constrained := upd c.constrained i false, dirichlet := upd c.dirichlet i false }, st.2)
  | some [] =>
    ({ c with constrained := upd c.constrained i true, dirichlet := upd c.dirichlet i true,
              range := upd c.range i (c.constraints.length, c.constraints.length) }, st.2)
  | some (e :: row) =>
    ({ c with constrained := upd c.constrained i true, dirichlet := upd c.dirichlet i false },
      st.2 ++ [(i, e :: row)])

/-- lfsindexcache.hh:370-381  one iteration of the loop that copies the coefficients. -/
def Cache.copyStep (c : Cache I F) (e : Nat × List (I × F)) : Cache I F :=
  { c with constraints := c.constraints ++ e.2,
           range := upd c.range e.1 (c.constraints.length, c.constraints.length + e.2.length) }

/-- lfsindexcache.hh:304-385  `update()` after binding to an element with `n` DOFs with container indices `ci`. -/
def Cache.update (c : Cache I F) (t : Trafo I F) (n : Nat) (ci : Nat → I) : Cache I F :=
  let c := { c with size := n, ci := ci }
  if c.caching then
    let st := (List.range n).foldl (Cache.flagStep t) ({ c with constraints := [] }, [])
    if 0 < (st.2.map fun e => e.2.length).sum then st.2.foldl Cache.copyStep st.1 else st.1
  else c

/-- lfsindexcache.hh:420-430  the entries between `constraintsBegin(i)` and `constraintsEnd(i)`. -/
def Cache.entries (c : Cache I F) (i : Nat) : List (I × F) :=
  (c.constraints.drop (c.range i).1).take ((c.range i).2 - (c.range i).1)

end Cache

section Pattern
variable {I F : Type} [DecidableEq I]

/-- assemblerutilities.hh:589-597. -/
def addDiagonalEntry (r c : I) : List (I × I) := if r = c then [(r, c)] else []

/-- assemblerutilities.hh:610-660  `add_entry`: the links added to the global pattern for the local link `(i,j)`. -/
def addEntry (v u : Cache I F) (i j : Nat) : List (I × I) :=
  addDiagonalEntry (v.ci i) (u.ci j) ++
  if !v.constrained i then
    if !u.constrained j || u.dirichlet j then [(v.ci i, u.ci j)]
    else (u.entries j).map fun e => (v.ci i, e.1)
  else
    if v.dirichlet i then [(v.ci i, u.ci j)]
    else (v.entries i).flatMap fun ev =>
      if !u.constrained j || u.dirichlet j then [(ev.1, u.ci j)]
      else (u.entries j).map fun eu => (ev.1, eu.1)

/-- patternengine.hh:145-158  `add_pattern`. -/
def addPattern (v u : Cache I F) (links : List (Nat × Nat)) : List (I × I) :=
  links.flatMap fun l => addEntry v u l.1 l.2

end Pattern

section Scatter
variable {I F : Type} [DecidableEq I] [DecidableEq F] [Zero F] [Mul F]

/-- The call `globalcontainer_view.add(row,col,value)` if `value` is not zero.
Source: assemblerutilities.hh:542-543, 550-551, 558-559, 569-570, 577-578. -/
def addNonzero (r c : I) (value : F) : List (I × I × F) := if value ≠ 0 then [(r, c, value)] else []

/-- assemblerutilities.hh:520-583  `etadd`, the loop body for the local entry `(i,j)`: the calls of
`globalcontainer_view.add`. -/
def etaddEntry (v u : Cache I F) (A : Nat → Nat → F) (i j : Nat) : List (I × I × F) :=
  if A i j = 0 then []
  else if v.constrained i then
    if v.dirichlet i then []
    else (v.entries i).flatMap fun ev =>
      if u.constrained j then
        if u.dirichlet j then addNonzero ev.1 (u.ci j) (A i j * ev.2)
        else (u.entries j).flatMap fun eu => addNonzero ev.1 eu.1 (A i j * ev.2 * eu.2)
      else addNonzero ev.1 (u.ci j) (A i j * ev.2)
  else if u.constrained j then
    if u.dirichlet j then addNonzero (v.ci i) (u.ci j) (A i j)
    else (u.entries j).flatMap fun eu => addNonzero (v.ci i) eu.1 (A i j * eu.2)
  else [(v.ci i, u.ci j, A i j)]

/-- assemblerutilities.hh:500-586  `etadd`. -/
def etadd (v u : Cache I F) (A : Nat → Nat → F) : List (I × I × F) :=
  (List.range v.size).flatMap fun i => (List.range u.size).flatMap fun j => etaddEntry v u A i j

/-- Clear the column `j` of a local matrix (with `n` rows). Source: assemblerutilities.hh:485-490. -/
def clearColumn (n : Nat) (A : Nat → Nat → F) (j : Nat) : Nat → Nat → F :=
  (List.range n).foldl (fun A i => fun i' j' => if i' = i ∧ j' = j then 0 else A i' j') A

/-- assemblerutilities.hh:481-493  the loop of `etadd_symmetric` that clears the Dirichlet columns. -/
def clearDirichletColumns (v u : Cache I F) (A : Nat → Nat → F) : Nat → Nat → F :=
  (List.range u.size).foldl
    (fun A j => if u.constrained j && u.dirichlet j then clearColumn v.size A j else A) A

/-- assemblerutilities.hh:465-497. -/
def etaddSymmetric (v u : Cache I F) (A : Nat → Nat → F) : List (I × I × F) :=
  etadd v u (clearDirichletColumns v u A)

/-- assemblerutilities.hh:405-427  the loop that clears the columns of constrained trial DOFs when constraints are not
cached; `none` is the failing assertion (a constraint that is not a Dirichlet constraint). -/
def clearConstrainedColumns (tu : Trafo I F) (v u : Cache I F) (A : Nat → Nat → F) : Option (Nat → Nat → F) :=
  (List.range u.size).foldlM
    (fun A j => match find? (u.ci j) tu.rows with
      | none => some A
      | some [] => some (clearColumn v.size A j)
      | some (_ :: _) => none) A

/-- assemblerutilities.hh:431-437, 453-459  write the nonzero entries without considering constraints. -/
def addPlain (v u : Cache I F) (A : Nat → Nat → F) : List (I × I × F) :=
  (List.range v.size).flatMap fun i => (List.range u.size).flatMap fun j => addNonzero (v.ci i) (u.ci j) (A i j)

/-- assemblerutilities.hh:376-439  `scatter_jacobian`. -/
def scatterJacobian (tu : Trafo I F) (v u : Cache I F) (symmetric : Bool) (A : Nat → Nat → F) :
    Option (List (I × I × F)) :=
  if v.caching && u.caching then
    some (if symmetric then etaddSymmetric v u A else etadd v u A)
  else
    if symmetric then (clearConstrainedColumns tu v u A).map (addPlain v u) else some (addPlain v u A)

end Scatter

section Matrix
variable {I F : Type} [DecidableEq I]

/-- A sparse matrix: the stored positions and the values (zero outside). Source: what bcrsmatrix.hh:200-220 gives access to. -/
structure Matrix (I F : Type) where
  pattern : List (I × I)
  val : I → I → F

/-- A matrix with a given pattern is filled with zeros. Source: the constructor of the container, backend/istl/bcrsmatrix.hh:100-106. -/
def Matrix.zero [Zero F] (p : List (I × I)) : Matrix I F := ⟨p, fun _ _ => 0⟩

/-- `matrix(r,c) += value`; `none` if the entry is not stored (an assertion or undefined behaviour of the backend).
Source: backend/istl/bcrsmatrix.hh:212-220. -/
def Matrix.add [Add F] (m : Matrix I F) (e : I × I × F) : Option (Matrix I F) :=
  if (e.1, e.2.1) ∈ m.pattern then
    some { m with val := fun r c => if r = e.1 ∧ c = e.2.1 then m.val r c + e.2.2 else m.val r c }
  else none

/-- bcrsmatrix.hh:254-258  `clear_row`: clears the stored entries of the row and writes the diagonal entry if it
exists. -/
def Matrix.clearRow [Zero F] (m : Matrix I F) (k : I) (d : F) : Matrix I F :=
  { m with val := fun r c => if r = k then (if c = k ∧ (k, k) ∈ m.pattern then d else 0) else m.val r c }

/-- assemblerutilities.hh:665-671  `set_trivial_rows`. -/
def setTrivialRows [Zero F] [One F] (t : Trafo I F) (m : Matrix I F) : Matrix I F :=
  t.rows.foldl (fun m row => m.clearRow row.1 1) m

end Matrix

section Assembly
variable {I F : Type} [DecidableEq I]

/-- One call of `add_pattern` during pattern assembly: the container indices of the test and trial DOFs and the
local pattern. Source: gridoperator/default/patternengine.hh:191-202. -/
structure PatternPart (I : Type) where
  nv : Nat
  nu : Nat
  v : Nat → I
  u : Nat → I
  links : List (Nat × Nat)

/-- One call of `scatter_jacobian` during Jacobian assembly. Source: gridoperator/default/jacobianengine.hh:161-171. -/
structure JacobianPart (I F : Type) where
  nv : Nat
  nu : Nat
  v : Nat → I
  u : Nat → I
  A : Nat → Nat → F

/-- patternengine.hh:28-31, jacobianengine.hh:30-33  `needsConstraintsCaching` (the same in both engines). -/
def needsCaching (tu tv : Trafo I F) : Bool := tu.nonDirichlet || tv.nonDirichlet

/-- default/assembler.hh:91-97, patternengine.hh:145-158: pattern assembly. The caches are rebound for every part, so
their state is passed on. -/
def assemblePattern (tu tv : Trafo I F) (parts : List (PatternPart I)) (cv cu : Cache I F) : List (I × I) :=
  match parts with
  | [] => []
  | p :: ps =>
    let cv := cv.update tv p.nv p.v
    let cu := cu.update tu p.nu p.u
    addPattern cv cu p.links ++ assemblePattern tu tv ps cv cu

variable [DecidableEq F] [Zero F] [Mul F] [Add F] [One F]

/-- The scatter loop of the Jacobian assembly (jacobianengine.hh:158-172). -/
def assembleParts (tu tv : Trafo I F) (symmetric : Bool) (parts : List (JacobianPart I F)) (cv cu : Cache I F)
    (m : Matrix I F) : Option (Matrix I F) :=
  match parts with
  | [] => some m
  | p :: ps => do
    let cv := cv.update tv p.nv p.v
    let cu := cu.update tu p.nu p.u
    let adds ← scatterJacobian tu cv cu symmetric p.A
    let m ← adds.foldlM Matrix.add m
    assembleParts tu tv symmetric ps cv cu m

/-- jacobianengine.hh:197-210  Jacobian assembly into a zero matrix with the assembled pattern, with
post-processing. -/
def assembleJacobian (tu tv : Trafo I F) (symmetric : Bool) (ci0 : Nat → I) (pattern : List (PatternPart I))
    (parts : List (JacobianPart I F)) : Option (Matrix I F) :=
  let caching := needsCaching tu tv
  let p := assemblePattern tu tv pattern (Cache.init caching ci0) (Cache.init caching ci0)
  (assembleParts tu tv symmetric parts (Cache.init caching ci0) (Cache.init caching ci0) (Matrix.zero p)).map
    (setTrivialRows tv)

end Assembly

section Transform
variable {I F : Type} [DecidableEq I] [Mul F] [Add F] [Zero F]

/-- assemblerutilities.hh:250-282  `forwardtransform`. -/
def forwardTransform (t : Trafo I F) (postrestrict : Bool) (x : I → F) : I → F :=
  let x := t.rows.foldl distributeCol x
  if postrestrict then t.rows.foldl (fun x col => upd x col.1 0) x else x

/-- assemblerutilities.hh:311-331  `backtransform`, one constraint. -/
def backCol (prerestrict : Bool) (x : I → F) (col : I × List (I × F)) : I → F :=
  let x := if prerestrict then upd x col.1 0 else x
  col.2.foldl (fun x e => upd x col.1 (x col.1 + e.2 * x e.1)) x

/-- assemblerutilities.hh:301-332  `backtransform`. -/
def backTransform (t : Trafo I F) (prerestrict : Bool) (x : I → F) : I → F := t.rows.foldl (backCol prerestrict) x

end Transform

end Verif.Assembly
