import Verif.Model.Partition
/-
Model of the partition of an entity set with METIS.

Source: /repo/dune/pdelab/common/partition/metis.hh.

Simplifications: entity seeds are identified with the elements (an iterator of `EntitySeedContainer`, lines 42-83, turns each seed of the vector
back into its element); METIS is a parameter that is given the arguments of `METIS_PartMeshDual` and answers with the number of the part of each
element, or with an error.
-/
namespace Verif.MetisPartition

open Partition

/-- The arguments of `METIS_PartMeshDual`, metis.hh:213-225 and 235-247 (those that are not null pointers). -/
structure Mesh where
  elementCount : Nat
  nodeCount : Nat
  cells : List Nat
  nodes : List Nat
  ncommonnodes : Nat
  parts : Nat
  deriving DecidableEq

/-- metis.hh:208-224  the loop over the elements: `corners e` are the indices of the vertices of `e` in the order of the reference element. The
state is `vertices`, `cells`, `nodes` and `seeds`. -/
def gather {α : Type} (corners : α → List Nat) : List α → Nat × List Nat × List Nat × List α → Nat × List Nat × List Nat × List α
  | [], st => st
  | e :: es, (vertices, cells, nodes, seeds) =>
    let vertices := vertices + (corners e).length
    gather corners es (vertices, cells ++ [vertices], nodes ++ corners e, seeds ++ [e])

/-- metis.hh:198-229  the arguments for METIS and the seeds. -/
def mesh {α : Type} (corners : α → List Nat) (patches : Nat) (elements : List α) : Mesh × List α :=
  let r := gather corners elements (0, [0], [], [])
  (⟨r.2.1.length - 1, r.2.2.1.length, r.2.1, r.2.2.1, 2, patches⟩, r.2.2.2)

/-- Exceptions and undefined behaviour. Used for `assign`, metis.hh:256-257. -/
inductive Err where
  | partitionError
  | undefined
  deriving DecidableEq, Repr

/-- metis.hh:256-257  the seeds are appended to the patch of their part; a part that does not exist is an access outside of the vector. -/
def assign {α : Type} : List (α × Nat) → List (List α) → Except Err (List (List α))
  | [], ps => .ok ps
  | (e, k) :: r, ps =>
    match ps[k]? with
    | none => .error .undefined
    | some p => assign r (ps.set k (p ++ [e]))

/-- metis.hh:174-262  `MetisMixin::update`: the new value of `_patches` and the patches of the single label. -/
def update {α : Type} (dim : Nat) (corners : α → List Nat) (metis : Mesh → Option (List Nat)) (stored : Nat) (elements : List α) :
    Except Err (Nat × List (List α)) :=
  let patches := choosePatches dim stored elements.length
  if patches = 1 then .ok (patches, [elements])
  else
    let (m, seeds) := mesh corners patches elements
    match metis m with
    | none => .error .partitionError
    | some part =>
      match assign (seeds.zip part) (List.replicate patches []) with
      | .error e => .error e
      | .ok ps => .ok (patches, ps)

/-- metis.hh:288-299  class `Metis`: its constructor (with the constructor of the base class, lines 145-150) and calls of `update`; the first
element of the list is the entity set of the constructor, `stored` is `_patches`. The result is the state after the last call. -/
def metisRun {α : Type} (dim : Nat) (corners : α → List Nat) (metis : Mesh → Option (List Nat)) :
    Nat → List (List α) → Except Err (Nat × List (List α))
  | stored, [] => .ok (stored, [])
  | stored, [es] => update dim corners metis stored es
  | stored, es :: ess =>
    match update dim corners metis stored es with
    | .error e => .error e
    | .ok (stored, _) => metisRun dim corners metis stored ess

/-- metis.hh:325-333  class `MetisColored`: each update constructs a new `MetisMixin` with the number given to the constructor. These are the
patches that are colored. -/
def coloredRun {α : Type} (dim : Nat) (corners : α → List Nat) (metis : Mesh → Option (List Nat)) (patches : Nat) :
    List (List α) → Except Err (Nat × List (List α))
  | [] => .ok (patches, [])
  | [es] => update dim corners metis patches es
  | es :: ess =>
    match update dim corners metis patches es with
    | .error e => .error e
    | .ok _ => coloredRun dim corners metis patches ess

end Verif.MetisPartition
