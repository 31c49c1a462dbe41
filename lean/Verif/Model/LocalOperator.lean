import Mathlib.Data.Matrix.Mul
/-
What the local operators of dune/pdelab/localoperator see of the grid, and how they report their contributions.

A local operator hands its contributions over by a sequence of calls `r.accumulate(lfs,i,value)` and
`mat.accumulate(lfsv,i,lfsu,j,value)`. A method is modelled by the sequence of these calls; what an accumulation view does
with a call is modelled in `Verif.Model.LocalContainers`. Numbers are elements of a field; a loop that sums up products is
written as a finite sum. `FieldVector<RF,dim>` is `Fin d → K`, `FieldMatrix` is `Matrix`, their products (`mv`, `operator*`)
are `*ᵥ` and `⬝ᵥ`.
-/
namespace Verif.LocalOp

/-- A sequence of `accumulate` calls: which entry, and the value.
Source: gridfunctionspace/localvector.hh:77-83, gridoperator/common/localmatrix.hh:75-97. -/
abbrev Calls (ι K : Type) := List (ι × K)

/-- `for (i=0; i<size; i++) r.accumulate(lfs,i,v(i))`. Source: loops such as localoperator/convectiondiffusionfem.hh:133-134. -/
def forEach {K : Type} {n : Nat} (v : Fin n → K) : Calls (Fin n) K := (List.finRange n).map fun i => (i, v i)

/-- `for (j=0; j<cols; j++) for (i=0; i<rows; i++) mat.accumulate(lfsv,i,lfsu,j,v(i,j))`.
Source: loops such as localoperator/convectiondiffusionfem.hh:199-201. -/
def forEach₂ {K : Type} {m n : Nat} (v : Fin m → Fin n → K) : Calls (Fin m × Fin n) K :=
  (List.finRange n).flatMap fun j => (List.finRange m).map fun i => ((i, j), v i j)

/-- The geometry of a cell: `P` are positions in the reference element, `quadratureRule` takes the order and yields points
and weights. Source: common/geometrywrapper.hh:15-48, common/quadraturerules.hh:117. -/
structure CellGeo (K P : Type) (d : Nat) where
  center : P
  volume : K
  global : P → Fin d → K
  integrationElement : P → K
  jacobianInverseTransposed : P → Matrix (Fin d) (Fin d) K
  quadratureRule : Int → List (P × K)

/-- The geometry of an intersection: `Q` are positions in the reference element of the face. Source: common/geometrywrapper.hh:56-231. -/
structure FaceGeo (K P Q : Type) (d : Nat) where
  center : Q
  refVolume : K
  volume : K
  global : Q → Fin d → K
  integrationElement : Q → K
  inInside : Q → P
  inOutside : Q → P
  centerUnitOuterNormal : Fin d → K
  unitOuterNormal : Q → Fin d → K
  quadratureRule : Int → List (Q × K)

/-- A finite element with `n` scalar shape functions: its order, the values and the gradients on the reference element
(`js[i][0]`). Source: the finite element of gridfunctionspace/localfunctionspace.hh:594-612. -/
structure Basis (K P : Type) (d n : Nat) where
  order : Nat
  phi : P → Fin n → K
  js : P → Fin n → Fin d → K

end Verif.LocalOp
