import Verif.Model.Ordering
/-
Model of the deduction of the type of coefficient vectors from a tree of function spaces (compile time), and of the decision which nodes of the tree
contribute an entry to container indices. Sources under /repo/dune/pdelab: backend/istl/vectorhelpers.hh:128-432, backend/istl/descriptors.hh,
ordering/transformations.hh.
-/
namespace Verif.VectorType

/-- descriptors.hh:26-41  `Blocking`. -/
inductive Blocking where
  | none
  | bcrs
  | fixed
deriving DecidableEq, Repr

/-- descriptors.hh:46-64  the parameters of `VectorBackend`; block size 0: to be deduced. -/
structure Backend where
  blocking : Blocking
  blockSize : Nat
deriving DecidableEq, Repr

/-- A tree of grid function spaces: every node has a backend and a tag, which is `ordering::Chunked<..>` or not; leaf spaces have the block size
of their finite element map (`FiniteElementMapBlockSize`, 0 if there is none), vectorhelpers.hh:142-172, 297-302. -/
inductive Tree where
  | leaf (be : Backend) (chunked : Bool) (detected : Nat)
  | node (be : Backend) (chunked : Bool) (n : Nat) (child : Nat → Tree)

/-- vectorhelpers.hh:142-201, 231-268, 297-404  the members of a descriptor. The type of the vector is given by the number of nested
`BlockVector`s and the size of the `FieldVector` inside. -/
structure Desc where
  noBlocking : Bool
  cascaded : Bool
  valid : Bool
  blockSize : Nat
  cumulative : Nat
  depth : Nat
  size : Nat
deriving DecidableEq, Repr

/-- vectorhelpers.hh:142-201  `leaf_vector_descriptor`; `none`: a static assertion fails. -/
def leafDesc (be : Backend) (detected : Nat) : Option Desc :=
  let cumulative := if 0 < be.blockSize then be.blockSize else detected
  let valid := decide (0 < cumulative)
  let blockSize := if be.blocking = .fixed then cumulative else 1
  if be.blocking ≠ .bcrs ∧ (be.blockSize = 0 ∨ detected % cumulative = 0) ∧ (be.blocking ≠ .fixed ∨ valid = true) then
    some ⟨true, decide (be.blocking = .none), valid, blockSize, cumulative, 1, blockSize⟩
  else none

/-- vectorhelpers.hh:231-268  `cascading_vector_descriptor`. -/
def siblings (a b : Desc) : Desc :=
  let noBlocking := a.noBlocking && (decide (a.depth = b.depth) && decide (a.size = b.size))
  let blockSize := if noBlocking then a.blockSize else 1
  ⟨noBlocking, a.cascaded && b.cascaded, a.valid && b.valid, blockSize, a.cumulative + b.cumulative, 1, blockSize⟩

/-- vectorhelpers.hh:271-295  the reduction over the children: the first one is taken as it is. (No children: the descriptor is `void`, which has no
members.) -/
def reduce : List Desc → Option Desc
  | [] => none
  | d :: ds => some (ds.foldl siblings d)

/-- vectorhelpers.hh:297-404  `parent_child_vector_descriptor`; `none`: a static assertion fails. -/
def parent (be : Backend) (c : Desc) : Option Desc :=
  let blockSize := if be.blocking = .fixed then c.cumulative else c.blockSize
  let data : Desc := ⟨c.noBlocking, c.cascaded && decide (be.blocking = .none), c.valid, blockSize, c.cumulative, c.depth, c.size⟩
  if be.blockSize = 0 ∧ (be.blocking ≠ .fixed ∨ c.cascaded = true) ∧ (be.blocking ≠ .fixed ∨ c.valid = true) then
    match be.blocking with
    | .none => if data.noBlocking then some data else none
    | .bcrs => if data.noBlocking then some { data with depth := c.depth + 1 } else none
    | .fixed => some { data with depth := 1, size := blockSize }
  else none

/-- vectorhelpers.hh:425-433  the descriptor of a tree; `none`: the program does not compile. -/
def Tree.describe : Tree → Option Desc
  | .leaf be _ detected => leafDesc be detected
  | .node be _ n child => do
    let ds ← (List.range n).mapM fun i => (child i).describe
    parent be (← reduce ds)

/-- descriptors.hh:66-80  `VectorBackend::blocked(gfs)`, chunkedblockordering.hh:99-103. -/
def blocked (be : Backend) (isLeaf chunked : Bool) : Bool :=
  if chunked then false
  else decide (be.blocking ≠ .none) && (decide (be.blocking ≠ .fixed) || !isLeaf || decide (1 < be.blockSize) || decide (be.blockSize = 0))

/-- Entries of container indices that are due to a node: one if the node is blocked (orderingbase.hh:232-262), one if its ordering is chunked
(chunkedblockordering.hh:170-178). -/
def entries (be : Backend) (isLeaf chunked : Bool) : Nat :=
  (if blocked be isLeaf chunked then 1 else 0) + (if chunked then 1 else 0)

/-- The length of the container indices of the leaf space at the end of a path through the tree, if the orderings of all nodes are lexicographic,
interleaved or chunked, and those of the leaves stand for themselves (orderingbase.hh:232-262, leafgridviewordering.hh:117-147,
chunkedblockordering.hh:170-178). -/
def Tree.indexLength : Tree → List Nat → Nat
  | .leaf be chunked _, _ => 1 + entries be true chunked
  | .node _ _ _ _, [] => 0
  | .node be chunked _ child, c :: p => (child c).indexLength p + entries be false chunked

/-- descriptors.hh:61-63  `max_blocking_depth`. -/
def maxBlockingDepth (be : Backend) : Nat := if be.blocking ≠ .none then 1 else 0

/-- transformations.hh:33-63  the sum of `max_blocking_depth` along the paths, the largest one. -/
def Tree.maxDepth : Tree → Nat
  | .leaf be _ _ => maxBlockingDepth be
  | .node be _ n child => ((List.range n).map fun i => (child i).maxDepth).foldl max 0 + maxBlockingDepth be

/-- transformations.hh:57-66  `ci_depth`, the capacity of container indices. -/
def Tree.capacity (t : Tree) : Nat := t.maxDepth + 1

end Verif.VectorType
