import Verif.Model.ParallelSolvers
/-
Model of the parallel index set for the algebraic multigrid.

Sources: dune/pdelab/backend/istl/parallelhelper.hh, dune/pdelab/gridfunctionspace/genericdatahandle.hh (under /repo).

Simplifications: as in the models of the parallel helper and the solver backends; positions are those of the blocks (the code looks at the first
entry of a block only). Global indices are natural numbers, `none` is the largest global index (no index).
-/
namespace Verif.AmgIndexSet

open Verif.ParallelHelper Verif.ParallelSolvers

/-- `std::min` of two global indices, `none` being the largest one. Source: genericdatahandle.hh:754. -/
def minIndex : Option Nat → Option Nat → Option Nat
  | none, b => b
  | a, none => a
  | some a, some b => some (min a b)

/-- `MinGatherScatter::scatter` for the entries of a local view, genericdatahandle.hh:749-755. -/
def scatterMin (v : Nat → Option Nat) (dofs : List Nat) (vals : List (Option Nat)) : Nat → Option Nat :=
  (dofs.zip vals).foldl (fun v q j => if j = q.1 then minIndex (v j) q.2 else v j) v

/-- The loop numbering the owned and shared blocks, parallelhelper.hh:375-380. -/
def numberShared : Nat → List Bool → List (Option Nat)
  | _, [] => []
  | start, true :: l => some start :: numberShared (start + 1) l
  | start, false :: l => none :: numberShared start l

/-- `owned_for_amg(i) && native(sharedDOF)[i][0]` for all blocks of process `p`, parallelhelper.hh:280-283, 357-359. -/
def ownedShared (L : Layout) (ranks : Nat → List Nat) (shared : Nat → List Bool) (p : Nat) : List Bool :=
  (List.range (L.size p)).map fun i => owned p (ranks p) i && (shared p)[i]?.getD false

/-- The counting loop, parallelhelper.hh:355-359. -/
def countShared (flags : List Bool) : Nat := flags.foldl (fun n b => if b then n + 1 else n) 0

/-- `start`, the sum of the counts of the lower ranks, parallelhelper.hh:365-370. -/
def start (flags : Nat → List Bool) (p : Nat) : Nat := ((List.range p).map fun q => countShared (flags q)).foldl (· + ·) 0

/-- `scalarIndices` before the communication, parallelhelper.hh:372-380. -/
def firstIndices (flags : Nat → List Bool) : Vecs (Option Nat) := fun p i => ((numberShared (start flags p) (flags p))[i]?).getD none

/-- The loop over the blocks filling the index set, parallelhelper.hh:391-408: global index, local index, and whether the attribute is owner (else copy). -/
def fillIndexSet (L : Layout) (ranks : Nat → List Nat) (num : Vecs (Option Nat)) (p : Nat) : List (Nat × Nat × Bool) :=
  (List.range (L.size p)).filterMap fun i => (num p i).map fun g => (g, i, owned p (ranks p) i)

/-- `createIndexSetAndProjectForAMG` on all processes, parallelhelper.hh:305-422, without the remote indices: `rmsgs` are the messages of the constructor of the
helper, `smsgs` those about shared DOFs and `msgs` those with indices. -/
def createIndexSet (L : Layout) (has : Msg → Bool) (rmsgs smsgs : List Msg) (msgs : List Message) : Option (Nat → List (Nat × Nat × Bool)) :=
  let ranks := rankPartition L rmsgs
  let shared := if L.procs > 1 then sharedDofs L has smsgs else fun p => List.replicate (L.size p) false
  let first := firstIndices (ownedShared L ranks shared)
  (if L.procs > 1 then communicate scatterMin msgs first else some first).map fun num => fillIndexSet L ranks num

end Verif.AmgIndexSet
