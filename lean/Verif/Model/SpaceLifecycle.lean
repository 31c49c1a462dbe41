import Mathlib.Data.Finset.Basic
import Mathlib.Algebra.BigOperators.Group.List.Basic

/-!
# The life cycle of grid function spaces

Model of `dune/pdelab/gridfunctionspace/gridfunctionspacebase.hh` and of the
access to orderings in `gridfunctionspace.hh`, `powergridfunctionspace.hh`,
`compositegridfunctionspace.hh` and `vectorgridfunctionspace.hh`: construction
of trees of spaces, copies, `update()`, `ordering()` and the sizes a space
reports.

Spaces are objects with an identity (a number).  Orderings are represented by
the tree of spaces they were made from: children of a space do not change after
its construction.  What a finite element map and a grid contribute to the size
of an ordering is a parameter (`dofs`); finite element maps have a fixed number
of degrees of freedom per geometry type, so that sizes are computed from the
number of entities known to the entity set.  Block counts are not modelled.
-/

set_option linter.unusedSectionVars false

namespace Verif.SpaceLifecycle

/-- A leaf space: its identity, its entity set (entity sets are compared by the
address of their index set, common/partitionviewentityset.hh:322-324), its
finite element map with the codimensions to which it attaches degrees of
freedom and the largest number of degrees of freedom of a cell. -/
structure Leaf where
  id : Nat
  es : Nat
  fem : Nat
  codims : Finset Nat
  maxLocal : Nat
  deriving DecidableEq

/-- A space: a leaf, or a power, composite or vector space.  `blocked` is the
ordering tag `EntityBlockedOrderingTag`, otherwise the ordering is
lexicographic or interleaved. Used for `Data`, gridfunctionspacebase.hh:61-77. -/
inductive Space where
  | leaf (l : Leaf)
  | node (id : Nat) (blocked : Bool) (children : List Space)

/-- The identity of a space. Used for `updateOrdering`, ordering/leafgridviewordering.hh:120-197. -/
def Space.id : Space → Nat
  | .leaf l => l.id
  | .node i _ _ => i

mutual

/-- The leaf spaces of a tree, in the order of a traversal. Used for `updateSets`, gridfunctionspacebase.hh:261-263. -/
def Space.leaves : Space → List Leaf
  | .leaf l => [l]
  | .node _ _ cs => leavesList cs

/-- The leaf spaces of a list of trees. Used for `updateOrdering`, ordering/leafgridviewordering.hh:120-197. -/
def leavesList : List Space → List Leaf
  | [] => []
  | s :: ss => s.leaves ++ leavesList ss

end

/-- What is used of an entity set: `_wanted_codims`, `_active_codims`,
`_needs_update` (common/partitionviewentityset.hh:502-506), and the grid whose
numbers of entities it knows (`_gt_offsets`). -/
structure Es (G : Type) where
  wanted : Finset Nat
  active : Finset Nat
  needsUpdate : Bool
  seen : Option G

/-- `PartitionViewEntitySet::update` (common/partitionviewentityset.hh:309-312
and 376-414). -/
def Es.update {G : Type} (force : Bool) (g : G) (e : Es G) : Es G :=
  if !(e.needsUpdate || force) then
    e
  else
    { e with seen := some g, active := e.wanted, needsUpdate := false }

/-- Adding codimensions to an entity set (the calls of `addCodim`,
common/partitionviewentityset.hh:490-494, in ordering/leafgridviewordering.hh:127-133
and ordering/gridviewordering.hh:695-702). -/
def Es.addCodims {G : Type} (codims : Finset Nat) (e : Es G) : Es G :=
  let w := e.wanted ∪ codims
  { e with wanted := w, needsUpdate := decide (w ≠ e.active) || decide (w = ∅) }

/-- `GridFunctionSpaceOrderingData` (gridfunctionspacebase.hh:61-77) and the
pointer `_ordering` of a space, here with the tree the ordering was made for. -/
structure Data where
  size : Nat
  globalSize : Nat
  maxLocalSize : Nat
  isRoot : Bool
  initialized : Bool
  sizeAvailable : Bool
  ordering : Option Space

/-- The constructor of `GridFunctionSpaceOrderingData`
(gridfunctionspacebase.hh:61-69). -/
def Data.init : Data := ⟨0, 0, 0, true, false, true, none⟩

/-- The grid, the entity sets, and the spaces with their data. Used for `updateWith`, gridfunctionspacebase.hh:353-362. -/
structure State (G : Type) where
  grid : G
  es : Nat → Es G
  data : Nat → Data
  spaces : List Space

/-- Result of an operation.  `unknown`: there is no such object, which cannot
be written. Used for `updateWith`, gridfunctionspacebase.hh:353-362. -/
inductive Outcome where
  | ok
  | hierarchyError
  | unknown
  deriving DecidableEq

/-- What a function which reports a size returns. Used for `size`, gridfunctionspacebase.hh:206-218. -/
inductive Report where
  | value (n : Nat)
  | uninitialized
  | hierarchyError
  deriving DecidableEq

/-- Update of a function at one argument. Used for `updateOrdering`, ordering/leafgridviewordering.hh:120-197. -/
def assign {A : Type} (f : Nat → A) (i : Nat) (a : A) : Nat → A :=
  fun j => if j = i then a else f j

variable {G : Type}

/-! ## Update of an ordering -/

section Ordering

variable (dofs : G → Nat → Nat)

/-- The number of degrees of freedom of a leaf for the entities the entity set
knows. Used for `updateOrdering`, ordering/leafgridviewordering.hh:120-197. -/
def leafSize (es : Nat → Es G) (l : Leaf) : Nat :=
  match (es l.es).seen with
  | some g => dofs g l.fem
  | none => 0

mutual

/-- The identities of the spaces of a tree whose orderings are local orderings,
in the order of a traversal. Used for `updateOrdering`, ordering/leafgridviewordering.hh:120-197. -/
def localIds : Space → List (Nat × Option Nat)
  | .leaf l => [(l.id, none)]
  | .node i _ cs => localIdsList cs ++ [(i, none)]

/-- The same for a list of trees. Used for `updateOrdering`, ordering/leafgridviewordering.hh:120-197. -/
def localIdsList : List Space → List (Nat × Option Nat)
  | [] => []
  | s :: ss => localIds s ++ localIdsList ss

end

/-- The codimensions used by leaves, with those of cells
(ordering/gridviewordering.hh:695-698). -/
def usedCodims (ls : List Leaf) : Finset Nat :=
  ls.foldl (fun c l => c ∪ l.codims) {0}

mutual

/-- `update()` of an ordering.  The result are the entity sets, the size of the
ordering, and for each node its identity with its size, which local orderings
do not have.  A leaf: ordering/leafgridviewordering.hh:120-197.  An entity
blocked node: ordering/gridviewordering.hh:688-810.  Other nodes:
ordering/lexicographicordering.hh:137-144, ordering/utility.hh:45-56 and
ordering/orderingbase.hh:97-137: the children are updated first, and the size is
the sum of those of the children. -/
def updateOrdering (g : G) : Space → (Nat → Es G) → (Nat → Es G) × Nat × List (Nat × Option Nat)
  | .leaf l, es =>
    let es := assign es l.es (((es l.es).addCodims (usedCodims [l])).update false g)
    let n := leafSize dofs es l
    (es, n, [(l.id, some n)])
  | .node i true cs, es =>
    let ls := leavesList cs
    match ls with
    | [] => (es, 0, localIdsList cs ++ [(i, some 0)])
    | l :: _ =>
      let es := assign es l.es (((es l.es).addCodims (usedCodims ls)).update false g)
      let n := (ls.map (leafSize dofs es)).sum
      (es, n, localIdsList cs ++ [(i, some n)])
  | .node i false cs, es =>
    let (es, n, out) := updateChildren g cs es
    (es, n, out ++ [(i, some n)])

/-- The update of the children of an ordering. Used for `updateOrdering`, ordering/leafgridviewordering.hh:120-197. -/
def updateChildren (g : G) : List Space → (Nat → Es G) →
    (Nat → Es G) × Nat × List (Nat × Option Nat)
  | [], es => (es, 0, [])
  | s :: ss, es =>
    let (es, n, out) := updateOrdering g s es
    let (es, n', out') := updateChildren g ss es
    (es, n + n', out ++ out')

end

/-- The largest number of degrees of freedom of a cell
(ordering/orderingbase.hh, `_max_local_size`): the sum of those of the leaves. Used for `writeData`, gridfunctionspacebase.hh:89-104. -/
def maxLocalSize (s : Space) : Nat :=
  (s.leaves.map Leaf.maxLocal).sum

/-- `update_ordering_data::update` for one node (gridfunctionspacebase.hh:89-104),
with `update_gfs_data_size` of orderings (ordering/orderingbase.hh:266-271) and
local orderings (ordering/localorderingbase.hh:390-393). -/
def writeData (global maxLocal : Nat) (data : Nat → Data) (o : Nat × Option Nat) : Nat → Data :=
  assign data o.1
    { data o.1 with
      initialized := true
      globalSize := global
      maxLocalSize := maxLocal
      size := match o.2 with | some n => n | none => (data o.1).size
      sizeAvailable := o.2.isSome }

/-- `GridFunctionSpaceBase::update(Ordering&)` of space `i`
(gridfunctionspacebase.hh:353-362). -/
def updateWith (st : State G) (i : Nat) (o : Space) : State G × Outcome :=
  if !(st.data i).isRoot then
    (st, .hierarchyError)
  else
    let (es, n, out) := updateOrdering dofs st.grid o st.es
    ({ st with es := es, data := out.foldl (writeData n (maxLocalSize o)) st.data }, .ok)

end Ordering

mutual

/-- Whether the ordering of a tree can be made: the leaves below an entity
blocked node have the same entity set (`common_entity_set`,
gridfunctionspacebase.hh:131-151, in
ordering/entityblockedlocalordering.hh:119-134). -/
def orderingPossible : Space → Bool
  | .leaf _ => true
  | .node _ true cs =>
    match leavesList cs with
    | [] => true
    | l :: ls => ls.all fun l' => l'.es == l.es
  | .node _ false cs => orderingPossibleList cs

/-- The same for all trees of a list. Used for `orderingPossible`, gridfunctionspacebase.hh:131-151. -/
def orderingPossibleList : List Space → Bool
  | [] => true
  | s :: ss => orderingPossible s && orderingPossibleList ss

end

/-- `create_ordering()` (gridfunctionspace.hh:479-482). -/
def createOrdering (st : State G) (i : Nat) (s : Space) : State G × Outcome :=
  if orderingPossible s then
    ({ st with data := assign st.data i { st.data i with ordering := some s } }, .ok)
  else
    (st, .hierarchyError)

/-- The update of the entity sets of the leaves: `update_leaf_entity_set::leaf`
(gridfunctionspacebase.hh:168-176), for the tracked entity set. -/
def updateLeafSets (force : Bool) (g : G) (tracked : Nat) (es : Nat → Es G) :
    List Leaf → Nat → Es G
  | [] => es
  | l :: ls =>
    if tracked ≠ l.es then
      updateLeafSets force g l.es (assign es l.es ((es l.es).update force g)) ls
    else
      updateLeafSets force g tracked es ls

/-- The update of all entity sets in `GridFunctionSpaceBase::update(bool)`
(gridfunctionspacebase.hh:261-263).  The entity set of a tree is the one of its
first leaf (powercompositegridfunctionspacebase.hh:103-116). -/
def updateSets (force : Bool) (g : G) (es : Nat → Es G) (s : Space) : Nat → Es G :=
  match s.leaves with
  | [] => es
  | l :: ls => updateLeafSets force g l.es (assign es l.es ((es l.es).update force g)) (l :: ls)

variable (dofs : G → Nat → Nat)

/-- `GridFunctionSpaceBase::update(bool)` (gridfunctionspacebase.hh:259-269). -/
def update (st : State G) (i : Nat) (force : Bool) : State G × Outcome :=
  match st.spaces[i]? with
  | none => (st, .unknown)
  | some s =>
    let st := { st with es := updateSets force st.grid st.es s }
    match (st.data i).ordering with
    | some o => updateWith dofs st i o
    | none =>
      match createOrdering st i s with
      | (st, .ok) => updateWith dofs st i s
      | (st, r) => (st, r)

/-- `ordering()` and `orderingStorage()` (gridfunctionspace.hh:411-473 and the
same text in the other spaces). -/
def ordering (st : State G) (i : Nat) : State G × Outcome :=
  match st.spaces[i]? with
  | none => (st, .unknown)
  | some s =>
    if !(st.data i).isRoot then
      (st, .hierarchyError)
    else
      match (st.data i).ordering with
      | some _ => (st, .ok)
      | none =>
        match createOrdering st i s with
        | (st, .ok) => updateWith dofs st i s
        | (st, r) => (st, r)

/-- Construction of a leaf space (gridfunctionspace.hh:242-383). -/
def newLeaf (st : State G) (es fem : Nat) (codims : Finset Nat) (maxLocal : Nat) :
    State G × Outcome :=
  let i := st.spaces.length
  ({ st with
      spaces := st.spaces ++ [.leaf ⟨i, es, fem, codims, maxLocal⟩]
      data := assign st.data i Data.init }, .ok)

/-- `reset_root_space_flag` applied to the children of a new space
(gridfunctionspacebase.hh:28-43 and 203). -/
def resetRoot : (Nat → Data) → List Nat → (Nat → Data) × Outcome
  | data, [] => (data, .ok)
  | data, c :: cs =>
    if (data c).initialized && (data c).isRoot then
      (data, .hierarchyError)
    else
      resetRoot (assign data c { data c with isRoot := false }) cs

/-- The objects with given identities. Used for `newNode`, powergridfunctionspace.hh:113-235. -/
def lookup (spaces : List Space) : List Nat → Option (List Space)
  | [] => some []
  | i :: is =>
    match spaces[i]?, lookup spaces is with
    | some s, some ss => some (s :: ss)
    | _, _ => none

/-- Construction of a power or composite space from existing spaces
(powergridfunctionspace.hh:113-235, compositegridfunctionspace.hh:108-150).
There is at least one child.  After an exception the new object does not
exist. -/
def newNode (st : State G) (blocked : Bool) (children : List Nat) : State G × Outcome :=
  match children, lookup st.spaces children with
  | [], _ => (st, .unknown)
  | _, none => (st, .unknown)
  | _, some cs =>
    match resetRoot st.data children with
    | (data, .ok) =>
      let i := st.spaces.length
      ({ st with
          spaces := st.spaces ++ [.node i blocked cs]
          data := assign data i Data.init }, .ok)
    | (data, r) => ({ st with data := data }, r)

/-- The implicit copy constructor of a space: all members are copied, the
children and the ordering are shared.
Source: the members of the classes modelled above, gridfunctionspacebase.hh:52-79, 188-392, gridfunctionspace.hh:487. -/
def copy (st : State G) (i : Nat) : State G × Outcome :=
  match st.spaces[i]? with
  | none => (st, .unknown)
  | some s =>
    let j := st.spaces.length
    let s' := match s with
      | .leaf l => .leaf { l with id := j }
      | .node _ b cs => .node j b cs
    ({ st with spaces := st.spaces ++ [s'], data := assign st.data j (st.data i) }, .ok)

/-- What a user does. Source: the methods of gridfunctionspacebase.hh:240-392 and gridfunctionspace.hh:413-482. -/
inductive Event (G : Type) where
  | changeGrid (g : G)
  | newLeaf (es fem : Nat) (codims : Finset Nat) (maxLocal : Nat)
  | newNode (blocked : Bool) (children : List Nat)
  | copy (i : Nat)
  | update (i : Nat) (force : Bool)
  | ordering (i : Nat)

/-- The effect of an event. Source: the methods of gridfunctionspacebase.hh:240-392 and gridfunctionspace.hh:413-482. -/
def step (st : State G) : Event G → State G × Outcome
  | .changeGrid g => ({ st with grid := g }, .ok)
  | .newLeaf es fem codims m => newLeaf st es fem codims m
  | .newNode b cs => newNode st b cs
  | .copy i => copy st i
  | .update i force => update dofs st i force
  | .ordering i => ordering dofs st i

/-- The state after a sequence of events; exceptions are caught.
Source: the methods of gridfunctionspacebase.hh:240-392 and gridfunctionspace.hh:413-482. -/
def run (st : State G) (h : List (Event G)) : State G :=
  h.foldl (fun st e => (step dofs st e).1) st

/-- The state at the beginning, with entity sets which want any codimensions. Used for `newNode`, powergridfunctionspace.hh:113-235. -/
def State.init (g : G) (wanted : Nat → Finset Nat) : State G where
  grid := g
  es := fun k => ⟨wanted k, ∅, true, none⟩
  data := fun _ => Data.init
  spaces := []

/-! ## Sizes -/

/-- `size()` (gridfunctionspacebase.hh:206-218). -/
def size (st : State G) (i : Nat) : Report :=
  if !(st.data i).initialized then .uninitialized
  else if !(st.data i).sizeAvailable then .hierarchyError
  else .value (st.data i).size

/-- `globalSize()` (gridfunctionspacebase.hh:234-241). -/
def globalSize (st : State G) (i : Nat) : Report :=
  if !(st.data i).initialized then .uninitialized else .value (st.data i).globalSize

/-- `maxLocalSize()` (gridfunctionspacebase.hh:244-251). -/
def reportedMaxLocalSize (st : State G) (i : Nat) : Report :=
  if !(st.data i).initialized then .uninitialized else .value (st.data i).maxLocalSize

end Verif.SpaceLifecycle
