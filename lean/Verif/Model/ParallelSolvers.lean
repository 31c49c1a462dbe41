import Verif.Model.ParallelHelper
import Mathlib.Algebra.BigOperators.Group.Finset.Basic
import Mathlib.Algebra.Order.Field.Basic
/-
Model of the operators, scalar products, preconditioners and direct solvers of the parallel ISTL backends, and of the partition of unity.

Sources: dune/pdelab/backend/istl/novlpistlsolverbackend.hh, dune/pdelab/backend/istl/ovlpistlsolverbackend.hh,
dune/pdelab/backend/istl/blockmatrixdiagonal.hh, dune/pdelab/backend/istl/geneo/partitionofunity.hh,
dune/pdelab/gridfunctionspace/genericdatahandle.hh (under /repo).

Simplifications: the vector of a process is a function of the flat position, matrices are functions of two positions (entries outside the
pattern are zero). A communication gathers all values before any message is scattered; the messages are scattered in the order of the list.
A receiving copy without DOFs ignores its message (entity not in the entity set of the receiver). Iterative solvers and the factorizations
are parameters.
-/
namespace Verif.ParallelSolvers

open Verif.ParallelHelper

/-- A message of a data handle from the copy `sent` on process `src` to the copy `received` on process `dst`.
Used for `deliver`, genericdatahandle.hh:319-352. -/
structure Message where
  src : Nat
  dst : Nat
  sent : Copy
  received : Copy
deriving DecidableEq

/-- The vectors of all processes: rank, position. Used for `deliver`, genericdatahandle.hh:319-352. -/
abbrev Vecs (V : Type) := Nat → Nat → V

/-- `AddGatherScatter::scatter` for the entries of a local view, genericdatahandle.hh:646-662 (`data += x`). -/
def scatterAdd {V : Type} [Add V] (v : Nat → V) (dofs : List Nat) (vals : List V) : Nat → V :=
  (dofs.zip vals).foldl (fun v q j => if j = q.1 then v j + q.2 else v j) v

/-- `CopyGatherScatter::scatter` for the entries of a local view, genericdatahandle.hh:709-725 (`data = x`). -/
def scatterCopy {V : Type} (v : Nat → V) (dofs : List Nat) (vals : List V) : Nat → V :=
  (dofs.zip vals).foldl (fun v q j => if j = q.1 then q.2 else v j) v

/-- Delivery of one message, genericdatahandle.hh:319-352: the values of the sender (from before the communication, `x`) are scattered into the
copy of the receiver; different numbers of DOFs are an exception (`none`). -/
def deliver {V : Type} (sc : (Nat → V) → List Nat → List V → Nat → V) (x : Vecs V) (s : Vecs V) (m : Message) : Option (Vecs V) :=
  let vals := m.sent.dofs.map (x m.src)
  if m.received.dofs = [] then some s
  else if m.received.dofs.length = vals.length then some fun p => if p = m.dst then sc (s p) m.received.dofs vals else s p
  else none

/-- `gridView().communicate(handle, …)`. Used for `addUp`, novlpistlsolverbackend.hh:93-96. -/
def communicate {V : Type} (sc : (Nat → V) → List Nat → List V → Nat → V) (msgs : List Message) (x : Vecs V) : Option (Vecs V) :=
  msgs.foldlM (deliver sc x) x

/-- `if (gfs.gridView().comm().size()>1) communicate(AddDataHandle(x), …)`, e.g. novlpistlsolverbackend.hh:93-96. -/
def addUp {V : Type} [Add V] (L : Layout) (msgs : List Message) (x : Vecs V) : Option (Vecs V) :=
  if L.procs > 1 then communicate scatterAdd msgs x else some x

section
variable {K : Type} [CommRing K]

/-- `native(A).mv(x,y)`. Used for `novlpApply`, novlpistlsolverbackend.hh:87-97. -/
def mv (n : Nat) (A : Nat → Nat → K) (x : Nat → K) : Nat → K := fun i => ∑ j ∈ Finset.range n, A i j * x j

/-- `native(A).usmv(alpha,x,y)`. Used for `novlpApplyscaleadd`, novlpistlsolverbackend.hh:105-115. -/
def usmv (n : Nat) (a : K) (A : Nat → Nat → K) (x y : Nat → K) : Nat → K := fun i => y i + ∑ j ∈ Finset.range n, a * A i j * x j

/-- `NonoverlappingOperator::apply`, novlpistlsolverbackend.hh:87-97. -/
def novlpApply (L : Layout) (msgs : List Message) (A : Nat → Nat → Nat → K) (x : Vecs K) : Option (Vecs K) :=
  addUp L msgs fun p => mv (L.size p) (A p) (x p)

/-- `NonoverlappingOperator::applyscaleadd`, novlpistlsolverbackend.hh:105-115. -/
def novlpApplyscaleadd (L : Layout) (msgs : List Message) (a : K) (A : Nat → Nat → Nat → K) (x y : Vecs K) : Option (Vecs K) :=
  addUp L msgs fun p => usmv (L.size p) a (A p) (x p) (y p)

/-- `set_constrained_dofs(cc,0.0,y)`, constraints/common/constraints.hh:795-802, on one process. -/
def zeroConstrained (cc : List Nat) (y : Nat → K) : Nat → K := cc.foldl (fun y i j => if j = i then 0 else y j) y

/-- `OverlappingOperator::apply`, ovlpistlsolverbackend.hh:56-61. -/
def ovlpApply (L : Layout) (cc : Nat → List Nat) (A : Nat → Nat → Nat → K) (x : Vecs K) : Vecs K :=
  fun p => zeroConstrained (cc p) (mv (L.size p) (A p) (x p))

/-- `OverlappingOperator::applyscaleadd`, ovlpistlsolverbackend.hh:64-69. -/
def ovlpApplyscaleadd (L : Layout) (cc : Nat → List Nat) (a : K) (A : Nat → Nat → Nat → K) (x y : Vecs K) : Vecs K :=
  fun p => zeroConstrained (cc p) (usmv (L.size p) a (A p) (x p) (y p))

/-- `OverlappingWrappedPreconditioner::apply`, ovlpistlsolverbackend.hh:166-174: `prec p v d` is the vector `v` after the sequential
preconditioner of process `p`. -/
def wrappedApply (L : Layout) (msgs : List Message) (cc : Nat → List Nat) (prec : Nat → (Nat → K) → (Nat → K) → Nat → K) (v d : Vecs K) :
    Option (Vecs K) :=
  addUp L msgs fun p => prec p (v p) (zeroConstrained (cc p) (d p))

/-- `UMFPackSubdomainSolver::apply`, ovlpistlsolverbackend.hh:230-240, and `SuperLUSubdomainSolver::apply`, 291-301: `solve p b` is the solution of
the direct solver of process `p`. -/
def subdomainApply (L : Layout) (msgs : List Message) (solve : Nat → (Nat → K) → Nat → K) (d : Vecs K) : Option (Vecs K) :=
  addUp L msgs fun p => solve p (d p)

/-- `maskForeignDOFs` on flat vectors, parallelhelper.hh:147-157 (nested vectors: `ParallelHelper.mask`). -/
def maskForeign (ranks : Nat → List Nat) (p : Nat) (v : Nat → K) : Nat → K := fun i => if owned p (ranks p) i then v i else 0

/-- `RestrictedSuperLUSubdomainSolver::apply`, ovlpistlsolverbackend.hh:352-364. -/
def restrictedApply (L : Layout) (msgs : List Message) (ranks : Nat → List Nat) (solve : Nat → (Nat → K) → Nat → K) (d : Vecs K) :
    Option (Vecs K) :=
  if L.procs > 1 then communicate scatterAdd msgs fun p => maskForeign ranks p (solve p (d p)) else some fun p => solve p (d p)

/-- `NonoverlappingScalarProduct::dot`, novlpistlsolverbackend.hh:157-164, and `OverlappingScalarProduct::dot`, ovlpistlsolverbackend.hh:109-116: the sum
over the processes of the local scalar products. -/
def dot (L : Layout) (ranks : Nat → List Nat) (x y : Vecs K) : K :=
  ∑ p ∈ Finset.range L.procs, ∑ i ∈ Finset.range (L.size p), if owned p (ranks p) i then x p i * y p i else 0

/-- `norm` of the nonoverlapping backends before the square root, novlpistlsolverbackend.hh:350-359: a copy is made consistent. -/
def novlpNorm2 (L : Layout) (msgs : List Message) (ranks : Nat → List Nat) (x : Vecs K) : Option K :=
  (addUp L msgs x).map fun y => dot L ranks y y

end

/-! ### Jacobi and explicit solvers -/

section
variable {B W : Type} [Add B]

/-- The constructor of `NonoverlappingJacobi`, novlpistlsolverbackend.hh:290-305 with blockmatrixdiagonal.hh:48-82, 290-345: the diagonal blocks are
copied, summed up on the border (the rows of a block are sent with the DOFs of the block; here a position is that of a block) and
inverted by `inv` (singular blocks are an exception in the code). The communication happens on one process, too. -/
def jacobiSetup (msgs : List Message) (inv : B → B) (A : Nat → Nat → Nat → B) : Option (Nat → Nat → B) :=
  (communicate scatterAdd msgs fun p i => A p i i).map fun D p i => inv (D p i)

/-- `NonoverlappingJacobi::apply`, novlpistlsolverbackend.hh:316-319 with blockmatrixdiagonal.hh:85-102. -/
def jacobiApply (act : B → W → W) (D : Nat → Nat → B) (d : Vecs W) : Vecs W := fun p i => act (D p i) (d p i)
end

section
variable {K : Type} [Field K]

/-- `ISTLBackend_NOVLP_ExplicitDiagonal::apply`, novlpistlsolverbackend.hh:675-692: one step of sequential Jacobi, then addition on the border. -/
def novlpExplicit (L : Layout) (msgs : List Message) (A : Nat → Nat → Nat → K) (r : Vecs K) : Option (Vecs K) :=
  addUp L msgs fun p i => r p i / A p i i

/-- `ISTLBackend_OVLP_ExplicitDiagonal::apply`, ovlpistlsolverbackend.hh:1047-1070: one step of sequential Jacobi, then copying. -/
def ovlpExplicit (L : Layout) (msgs : List Message) (A : Nat → Nat → Nat → K) (r : Vecs K) : Option (Vecs K) :=
  let z : Vecs K := fun p i => r p i / A p i i
  if L.procs > 1 then communicate scatterCopy msgs z else some z

/-! ### Partition of unity -/

variable [LinearOrder K]

/-- `standardPartitionOfUnity`, geneo/partitionofunity.hh:15-33. -/
def standardUnity (msgs : List Message) (cc : Nat → List Nat) : Option (Vecs K) :=
  (communicate scatterAdd msgs fun p => zeroConstrained (cc p) fun _ => (1 : K)).map fun s p i =>
    let v := zeroConstrained (cc p) (s p) i
    if v > 0 then 1 / v else v

/-- The distance in `sarkisPartitionOfUnity`, geneo/partitionofunity.hh:94-113, of the point `(x,y)` for process `rank`. -/
def sarkisDistance (cellsX cellsY overlap partX partY rank : Nat) (x y : K) : K :=
  let Hx : K := 1 / partX
  let Hy : K := 1 / partY
  let hx : K := overlap / cellsX
  let hy : K := overlap / cellsY
  let row := rank / partX
  let col := rank - partX * row
  let dx1 := (col + 1) * Hx + hx - x
  let dx2 := x - (col * Hx - hx)
  let dy1 := (row + 1) * Hy + hy - y
  let dy2 := y - (row * Hy - hy)
  let dy2 := if row = 0 then 2 * Hy else dy2
  let dy1 := if row = partY - 1 then 2 * Hy else dy1
  let dx2 := if col = 0 then 2 * Hx else dx2
  let dx1 := if col = partX - 1 then 2 * Hx else dx1
  min (min (min dx1 dx2) dy1) dy2

/-- `sarkisPartitionOfUnity` for given distances, geneo/partitionofunity.hh:117-131. -/
def sarkisUnity (msgs : List Message) (cc : Nat → List Nat) (dist : Vecs K) : Option (Vecs K) :=
  (communicate scatterAdd msgs dist).map fun s p =>
    zeroConstrained (cc p) fun i => if dist p i > 0 then dist p i * (1 / s p i) else dist p i

end

end Verif.ParallelSolvers
