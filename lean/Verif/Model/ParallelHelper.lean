import Mathlib.Algebra.Field.Defs
/-
Model of the disjoint partitioning of DOFs, of masking and of the scalar product on it, and of the data handles for shared DOFs and
neighbouring processes.

Sources: dune/pdelab/backend/istl/parallelhelper.hh, dune/pdelab/gridfunctionspace/genericdatahandle.hh (under /repo).

Simplifications: a process is given by the copies of grid entities it stores, a copy by the number of the entity (the same on all
processes), its partition and the positions of its DOFs in the (flat) container. A communication is the list of the messages delivered, in
the order of their delivery. Each message is scattered on its own; gathered values do not depend on the state, so that the time of gathering
does not matter. Ranks are natural numbers, the field of the scalar product is real (no conjugation).
-/
namespace Verif.ParallelHelper

/-- A copy of a grid entity on a process: the entity, whether the copy is interior or border, and the positions of its DOFs.
Used for `rankPartition`, parallelhelper.hh:66-104. -/
structure Copy where
  ent : Nat
  ib : Bool
  dofs : List Nat
deriving DecidableEq

/-- The processes `0, …, procs-1` with their copies and the sizes of their containers. Used for `rankPartition`, parallelhelper.hh:66-104. -/
structure Layout where
  procs : Nat
  copies : Nat → List Copy
  size : Nat → Nat

/-- A message about an entity from process `src`, delivered to the copy `copy` on process `dst`.
Used for `deliverRank`, genericdatahandle.hh:905-947. -/
structure Msg where
  src : Nat
  dst : Nat
  copy : Copy
deriving DecidableEq

/-- `std::numeric_limits<int>::max()`, genericdatahandle.hh:921. -/
def unknownRank : Nat := 2147483647

/-- The loop over the entries of the local view in a `scatter`: `f` maps the current value to the new one.
Used for `deliverRank`, genericdatahandle.hh:905-947. -/
def scatter {A : Type} (f : A → A) (dofs : List Nat) (v : List A) : List A :=
  dofs.foldl (fun v i => v.modify i f) v

/-- The new value of an entry in `DisjointPartitioningGatherScatter::scatter`, genericdatahandle.hh:930-945. -/
def newRank (rank : Nat) (ib : Bool) (received current : Nat) : Nat :=
  let current := if !ib && current == rank then unknownRank else current
  min current received

/-- Delivery of a message of the `DisjointPartitioningDataHandle`, genericdatahandle.hh:905-947: the sender writes its rank. -/
def deliverRank (s : Nat → List Nat) (m : Msg) : Nat → List Nat := fun p =>
  if p = m.dst then scatter (newRank m.dst m.copy.ib m.src) m.copy.dofs (s p) else s p

/-- The rank vectors after construction of the `ParallelHelper` on all processes, parallelhelper.hh:66-104 and genericdatahandle.hh:995-1000. -/
def rankPartition (L : Layout) (msgs : List Msg) : Nat → List Nat :=
  let init := fun p => List.replicate (L.size p) p
  if L.procs > 1 then msgs.foldl deliverRank init else init

/-- Delivery of a message of the `GhostDataHandle`, genericdatahandle.hh:827-842. -/
def deliverGhost (s : Nat → List Bool) (m : Msg) : Nat → List Bool := fun p =>
  if p = m.dst then scatter (fun _ => !m.copy.ib) m.copy.dofs (s p) else s p

/-- The ghost vectors after construction of the `ParallelHelper`, parallelhelper.hh:66-98. -/
def ghosts (L : Layout) (msgs : List Msg) : Nat → List Bool :=
  let init := fun p => List.replicate (L.size p) false
  if L.procs > 1 then msgs.foldl deliverGhost init else init

/-- Insertion into a `std::set`. Used for `neighborRanks`, parallelhelper.hh:108-115. -/
def insertSorted (a : Nat) : List Nat → List Nat
  | [] => [a]
  | b :: l => if a < b then a :: b :: l else if a = b then b :: l else b :: insertSorted a l

/-- `_neighbor_ranks`, parallelhelper.hh:108-115. -/
def neighborRanks (rank : Nat) (ranks : List Nat) : List Nat :=
  ranks.foldl (fun s r => if r ≠ rank then insertSorted r s else s) []

/-- A nested vector: `BlockVector` or `FieldVector`. Used for `mask`, parallelhelper.hh:124-157. -/
inductive NVec (A : Type) where
  | field (l : List A) : NVec A
  | block (l : List (NVec A)) : NVec A

section
variable {K : Type} [Field K]

/-- The loop of `maskForeignDOFs` for field vectors, parallelhelper.hh:147-157. -/
def maskField (rank : Nat) : List K → List Nat → Option (List K)
  | [], _ => some []
  | _ :: _, [] => none
  | a :: x, m :: mask => (maskField rank x mask).map fun l => (if m = rank then a else 0) :: l

mutual
/-- `maskForeignDOFs`, parallelhelper.hh:124-157. Different kinds of vectors or a mask that is too short are `none`. -/
def mask (rank : Nat) : NVec K → NVec Nat → Option (NVec K)
  | .field x, .field m => (maskField rank x m).map .field
  | .block x, .block m => (maskBlocks rank x m).map .block
  | _, _ => none
/-- The loop over the blocks, parallelhelper.hh:139-144. -/
def maskBlocks (rank : Nat) : List (NVec K) → List (NVec Nat) → Option (List (NVec K))
  | [], _ => some []
  | _ :: _, [] => none
  | a :: x, m :: ms => (mask rank a m).bind fun b => (maskBlocks rank x ms).map (b :: ·)
end

/-- The loop of `disjointDot` for field vectors with the accumulated result `r`, parallelhelper.hh:232-242. -/
def dotField (rank : Nat) (r : K) : List K → List K → List Nat → Option K
  | [], _, _ => some r
  | a :: x, b :: y, m :: mask => dotField rank (r + if m = rank then a * b else 0) x y mask
  | _, _, _ => none

mutual
/-- `disjointDot`, parallelhelper.hh:173-243. -/
def disjointDot (rank : Nat) : NVec K → NVec K → NVec Nat → Option K
  | .field x, .field y, .field m => dotField rank 0 x y m
  | .block x, .block y, .block m => dotBlocks rank 0 x y m
  | _, _, _ => none
/-- The loop over the blocks, parallelhelper.hh:205-213. -/
def dotBlocks (rank : Nat) (r : K) : List (NVec K) → List (NVec K) → List (NVec Nat) → Option K
  | [], _, _ => some r
  | a :: x, b :: y, m :: mask => (disjointDot rank a b m).bind fun d => dotBlocks rank (r + d) x y mask
  | _, _, _ => none
end
end

/-- `owned`, parallelhelper.hh:162-165, for the flat position `i`. -/
def owned (rank : Nat) (ranks : List Nat) (i : Nat) : Bool := ranks[i]? == some rank

/-- Delivery of a message of the `SharedDOFDataHandle`, genericdatahandle.hh:1026-1044; `has` tells whether the copy of the sender has DOFs. -/
def deliverShared (has : Msg → Bool) (s : Nat → List Bool) (m : Msg) : Nat → List Bool := fun p =>
  if p = m.dst then scatter (fun old => old || has m) m.copy.dofs (s p) else s p

/-- The result of the `SharedDOFDataHandle` on all processes, genericdatahandle.hh:1085-1090. -/
def sharedDofs (L : Layout) (has : Msg → Bool) (msgs : List Msg) : Nat → List Bool :=
  msgs.foldl (deliverShared has) (fun p => List.replicate (L.size p) false)

/-- The result of the `GFSNeighborDataHandle` on process `p`, genericdatahandle.hh:1102-1159; `contains` tells whether the codimension of an
entity is communicated. -/
def neighbors (contains : Nat → Bool) (p : Nat) (msgs : List Msg) : List Nat :=
  msgs.foldl (fun s m => if m.dst = p && contains m.copy.ent then insertSorted m.src s else s) []

end Verif.ParallelHelper
