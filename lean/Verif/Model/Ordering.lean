import Mathlib.Data.List.Dedup
/-
Model of the orderings that merge the index spaces of a tree of grid function spaces.
Sources under /repo/dune/pdelab/ordering: orderingbase.hh, lexicographicordering.hh,
interleavedordering.hh, chunkedblockordering.hh, permutedordering.hh; gridfunctionspace/tags.hh.

Container indices (`ContainerIndex`, a MultiIndex in inner-to-outer order) are lists with the
*last* entry (`back()`) at the head, so `push_back` is `cons`.
A DOF index is the tree path (outermost child first; the code reads `treeIndex().back()` and pops
it) and the number of the DOF inside the leaf ordering.
-/
namespace Verif.Orderings

/-- Ways in which a call can fail. Used for `collect`, orderingbase.hh:105-115, 134-136. -/
inductive Err where
  | structure   -- OrderingStructureError (orderingbase.hh:124, interleavedordering.hh:55)
  | permSize    -- PermutedOrderingSizeError (permutedordering.hh:201)
  | chunkSize   -- ChunkedBlockOrderingSizeError (chunkedblockordering.hh:215)
  | undefined   -- undefined behaviour (index out of range, division by zero, empty tree node)
deriving Repr, DecidableEq

/-- A tree of orderings. The children of an inner node are `child 0, ..., child (n-1)`.
* `leaf`: any leaf ordering, given by its number of blocks and its table DOF number ->
  container index (the grid-view orderings are modelled separately);
* `lex`: lexicographicordering.hh:105-302 (power and composite nodes behave the same);
* `inter`: interleavedordering.hh:204-345, with the sizes given to the tag (tags.hh:101-112);
* `chunked`: chunkedblockordering.hh:112-247;
* `permuted`: permutedordering.hh:100-223; `before` is the user's permutation when `update()` is
  called, `after` a permutation that the user assigns to the tag after `update()` (if any). -/
inductive OrdTree where
  | leaf (blocks : Nat) (table : List (List Nat))
  | lex (blocked : Bool) (n : Nat) (child : Nat → OrdTree)
  | inter (blocked : Bool) (sizes : List Nat) (n : Nat) (child : Nat → OrdTree)
  | chunked (bs : Nat) (child : OrdTree)
  | permuted (before : List Nat) (after : Option (List Nat)) (child : OrdTree)

/-- Running sums `a, a+x0, a+x0+x1, ...`: orderingbase.hh:107-115 (`_child_block_offsets`,
`_child_size_offsets`) and tags.hh:101-112 (`std::partial_sum` behind a leading zero). -/
def partialSums : Nat → List Nat → List Nat
  | a, [] => [a]
  | a, x :: xs => a :: partialSums (a + x) xs

/-- orderingbase.hh:282-290  what `update()` stores in a node. -/
structure Info where
  size : Nat
  blockCount : Nat
  sizeOffsets : List Nat
  blockOffsets : List Nat
deriving Repr, DecidableEq

/-- orderingbase.hh:105-115, 134-136  the part of `OrderingBase::update` common to all nodes:
offsets of the children, sizes and the unblocked block count. The vectors have `n+1` entries, or
none if there are no children (lines 149-150), in which case `.back()` is undefined. -/
def collect (infos : List Info) : Except Err Info :=
  if infos.length = 0 then .error .undefined
  else
    let bo := partialSums 0 (infos.map (·.blockCount))
    let so := partialSums 0 (infos.map (·.size))
    .ok { size := so.getLast?.getD 0, blockCount := bo.getLast?.getD 0, sizeOffsets := so, blockOffsets := bo }

/-- `update()` of a tree of orderings, children first: lexicographicordering.hh:137-144,
interleavedordering.hh:54-58 (constructor check) and 235-242, orderingbase.hh:97-137,
chunkedblockordering.hh:210-224, permutedordering.hh:196-217. -/
def OrdTree.update : OrdTree → Except Err Info
  | .leaf blocks table =>
    .ok { size := table.length, blockCount := blocks, sizeOffsets := [], blockOffsets := [] }
  | .lex blocked n child => do
    let infos ← (List.range n).mapM fun i => (child i).update
    let inf ← collect infos
    .ok (if blocked then { inf with blockCount := n } else inf)
  | .inter blocked sizes n child => do
    let merge := partialSums 0 sizes
    if n + 1 ≠ merge.length then .error .structure
    let infos ← (List.range n).mapM fun i => (child i).update
    let inf ← collect infos
    if blocked then
      let total := merge.getLast?.getD 0
      if total = 0 then .error .undefined
      else if inf.blockCount % total ≠ 0 then .error .structure
      else .ok { inf with blockCount := inf.blockCount / total }
    else .ok inf
  | .chunked bs child => do
    let ci ← child.update
    let inf ← collect [ci]
    if bs = 0 then .error .undefined
    else if ci.blockCount % bs ≠ 0 then .error .chunkSize
    else .ok { inf with blockCount := ci.blockCount / bs }
  | .permuted before _ child => do
    let ci ← child.update
    let inf ← collect [ci]
    if before ≠ [] ∧ before.length ≠ inf.blockCount then .error .permSize
    else .ok inf

/-- permutedordering.hh:207-216  `update()` always fills the permutation with 0,1,2,... if it does
not throw; the user's value survives only if assigned afterwards. -/
def effectivePerm (inf : Info) (after : Option (List Nat)) : List Nat :=
  match after with
  | some p => p
  | none => List.range inf.blockCount

/-- Access to an entry of a `std::vector`, used for `OrdTree.mapIndex`, orderingbase.hh:51-59 and 232-262; out of bounds is undefined behaviour. -/
def getOr (l : List Nat) (i : Nat) : Except Err Nat :=
  match l[i]? with
  | some x => .ok x
  | none => .error .undefined

/-- `mapIndex(di)` after `update()`: orderingbase.hh:51-59 and 232-262,
chunkedblockordering.hh:170-178, permutedordering.hh:168-172. -/
def OrdTree.mapIndex : OrdTree → List Nat → Nat → Except Err (List Nat)
  | .leaf _ table, [], d =>
    match table[d]? with
    | some ci => .ok ci
    | none => .error .undefined
  | .leaf _ _, _ :: _, _ => .error .undefined
  | .lex _ _ _, [], _ => .error .undefined
  | .lex blocked n child, c :: path, d => do
    let inf ← (OrdTree.lex blocked n child).update
    if n ≤ c then .error .undefined
    else
      match ← (child c).mapIndex path d with
      | [] => .error .undefined
      | back :: rest =>
        if blocked then .ok (c :: back :: rest)
        else do
          let off ← getOr inf.blockOffsets c
          .ok ((back + off) :: rest)
  | .inter _ _ _ _, [], _ => .error .undefined
  | .inter blocked sizes n child, c :: path, d => do
    let _ ← (OrdTree.inter blocked sizes n child).update
    if n ≤ c then .error .undefined
    else
      match ← (child c).mapIndex path d with
      | [] => .error .undefined
      | back :: rest => do
        let merge := partialSums 0 sizes
        let childBlockOffset ← getOr merge c
        let next ← getOr merge (c + 1)
        let childBlockSize := next - childBlockOffset
        if childBlockSize = 0 then .error .undefined
        else
          let blockIndex := back / childBlockSize
          let offset := back % childBlockSize
          let blockOffset := childBlockOffset + offset
          if blocked then .ok (blockIndex :: blockOffset :: rest)
          else .ok ((blockIndex * merge.getLast?.getD 0 + blockOffset) :: rest)
  | .chunked bs child, path, d => do
    let _ ← (OrdTree.chunked bs child).update
    match ← child.mapIndex path d with
    | [] => .error .undefined
    | flat :: rest => .ok (flat / bs :: flat % bs :: rest)
  | .permuted before after child, path, d => do
    let inf ← (OrdTree.permuted before after child).update
    match ← child.mapIndex path d with
    | [] => .error .undefined
    | back :: rest => do
      let b ← getOr (effectivePerm inf after) back
      .ok (b :: rest)

/-- The entries that follow `suffix` in the container indices of a leaf table, without repetition.
Used for `OrdTree.size`, lexicographicordering.hh:155-172 and 276-301. -/
def leafNext (table : List (List Nat)) (suffix : List Nat) : List Nat :=
  (table.filterMap fun ci => if suffix.isPrefixOf ci then ci[suffix.length]? else none).dedup

/-- `std::distance(begin, std::prev(std::upper_bound(begin, end, x)))`: position of the last entry
in front of the first entry greater than `x`; undefined if the first entry is already greater.
Used for `OrdTree.size`, lexicographicordering.hh:155-172 and 276-301. -/
def prevUpperBound (offsets : List Nat) (x : Nat) : Except Err Nat :=
  match offsets.findIdx (fun o => decide (x < o)) with
  | 0 => .error .undefined
  | k + 1 => .ok k

/-- `size(suffix)` after `update()`: lexicographicordering.hh:155-172 and 276-301,
interleavedordering.hh:138-193, chunkedblockordering.hh:228-241, permutedordering.hh:160-166.
The suffix is written outermost entry (`back()`) first. `maxDepth` is
`ContainerIndex::max_depth`, one constant for the whole tree.
Simplifications: the `size` of a leaf ordering is the number of different following entries in its
table (leafgridviewordering.hh:65-117 is not part of this model); where the composite version of the
lexicographic ordering returns `max()` for a child number that is out of range, the power version
accesses a child that does not exist: both are `undefined` here. -/
def OrdTree.size (maxDepth : Nat) : OrdTree → List Nat → Except Err Nat
  | .leaf blocks table, suffix =>
    if suffix.length = maxDepth then .ok 0
    else if suffix = [] then .ok blocks
    else .ok (leafNext table suffix).length
  | .lex blocked n child, suffix => do
    let inf ← (OrdTree.lex blocked n child).update
    if suffix.length = maxDepth then .ok 0
    else match suffix with
      | [] => .ok inf.blockCount
      | back :: rest =>
        if blocked then
          if n ≤ back then .error .undefined else (child back).size maxDepth rest
        else do
          let pos ← prevUpperBound inf.blockOffsets back
          -- the code uses the *value* of the iterator, not its position
          let c ← getOr inf.blockOffsets pos
          if n ≤ c then .error .undefined else (child c).size maxDepth (back :: rest)
  | .inter blocked sizes n child, suffix => do
    let inf ← (OrdTree.inter blocked sizes n child).update
    let merge := partialSums 0 sizes
    let blockSize := merge.getLast?.getD 0
    match blocked, suffix with
    | _, [] => .ok inf.blockCount
    | true, [_] => .ok blockSize
    | true, blockIndex :: blockOffset :: rest => do
      let c ← prevUpperBound merge blockOffset
      let off ← getOr merge c
      let next ← getOr merge (c + 1)
      if n ≤ c then .error .undefined
      else (child c).size maxDepth (((next - off) * blockIndex + blockOffset) :: rest)
    | false, back :: rest => do
      if blockSize = 0 then .error .undefined
      let blockIndex := back / blockSize
      let blockOffset := back % blockSize
      let c ← prevUpperBound merge blockOffset
      let off ← getOr merge c
      let next ← getOr merge (c + 1)
      if n ≤ c then .error .undefined
      else (child c).size maxDepth (((next - off) * blockIndex + blockOffset) :: rest)
  | .chunked bs child, suffix => do
    let inf ← (OrdTree.chunked bs child).update
    match suffix with
    | [] => .ok inf.blockCount
    | [_] => .ok bs
    | blockIndex :: innerIndex :: rest => child.size maxDepth ((bs * blockIndex + innerIndex) :: rest)
  | .permuted before after child, suffix => do
    let inf ← (OrdTree.permuted before after child).update
    match suffix with
    | [] => child.size maxDepth []
    | back :: rest => do
      let b ← getOr (effectivePerm inf after) back
      child.size maxDepth (b :: rest)

end Verif.Orderings
