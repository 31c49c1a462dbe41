import Verif.Model.LeafOrdering
/-
Model of entity-wise orderings of trees of function spaces (`EntityBlockedOrderingTag`).
Sources under /repo/dune/pdelab/ordering: gridviewordering.hh, localorderingbase.hh,
leaflocalordering.hh, entityblockedlocalordering.hh.

Container indices are lists with `back()` at the head (`push_back` is `cons`); tree indices are lists
with the outermost child index (`treeIndex().back()`) first and the number of the DOF in the leaf last.
-/
namespace Verif.GridViewOrdering
open Orderings (partialSums)
open LeafOrdering (Key Grid Scan)

/-- What the index set of the entity set tells: number of global geometry type indices and
`indexSet().size(gt)` (0 for types that do not occur). Used for `leafArrays`, gridviewordering.hh:85-104. -/
structure Mesh where
  types : Nat
  count : Nat → Nat

/-- A tree of function spaces that is ordered entity-wise: leaf spaces with their finite element map
(`some s`: `fixedSize()` with `size(gt) = s gt`; `none`: not fixed) and the local keys of the finite
elements of the cells, in cell order; inner nodes (power or composite) with the flag
`gfs.backend().blocked(gfs)` (entityblockedlocalordering.hh:51-54, 83, 89, 164-167, 209, 215). -/
inductive Space where
  | leaf (fem : Option (Nat → Nat)) (cells : List (List Key))
  | node (blocked : Bool) (n : Nat) (child : Nat → Space)

/-- localorderingbase.hh:432-449  members of a local ordering after `update()` (codims and
`_max_local_size` are left out). -/
structure Arrays where
  fixed : Bool
  gtUsed : List Bool
  gtEntityOffsets : List Nat
  gtDofOffsets : List Nat
  entityDofOffsets : List Nat
deriving Repr, DecidableEq

/-- A tree of local orderings; `none`: its construction ran into undefined behaviour. Used for `Local.fixed`, localorderingbase.hh:363-366. -/
inductive Local where
  | leaf (a : Option Arrays)
  | node (blocked : Bool) (a : Option Arrays) (n : Nat) (child : Nat → Local)

/-- The members of the root of a tree of local orderings, localorderingbase.hh:432-449. -/
def Local.arrays : Local → Option Arrays
  | .leaf a => a
  | .node _ a _ _ => a

/-- `_child_count`. Used for `Local.size`, localorderingbase.hh:237-250. -/
def Local.childCount : Local → Nat
  | .leaf _ => 0
  | .node _ _ n _ => n

/-- localorderingbase.hh:363-366  `fixedSize()`. -/
def Local.fixed (l : Local) : Bool := (l.arrays.map (·.fixed)).getD false

/-- localorderingbase.hh:368-376  `contains(gt)`, `contains_geometry_type(gt)`. -/
def Local.contains (l : Local) (t : Nat) : Bool := (l.arrays.bind fun a => a.gtUsed[t]?).getD false

/-- localorderingbase.hh:237-250  `size(gt,entity)`. -/
def Local.size (l : Local) (t e : Nat) : Option Nat :=
  l.arrays.bind fun a =>
    if a.fixed then
      if 0 < l.childCount then a.gtDofOffsets[t * l.childCount + l.childCount - 1]? else a.gtDofOffsets[t]?
    else a.gtUsed[t]?.bind fun u =>
      if u then a.gtEntityOffsets[t]?.bind fun off =>
        if 0 < l.childCount then a.entityDofOffsets[(off + e) * l.childCount + l.childCount - 1]?
        else a.entityDofOffsets[off + e]?
      else some 0

/-- localorderingbase.hh:252-272  `size(gt,entity,child)` of an inner node. -/
def Local.childSize (l : Local) (t e c : Nat) : Option Nat :=
  if c < l.childCount then
    l.arrays.bind fun a =>
      if a.fixed then
        a.gtDofOffsets[t * l.childCount + c]?.bind fun x =>
          if 0 < c then a.gtDofOffsets[t * l.childCount + c - 1]?.map fun y => x - y else some x
      else a.gtUsed[t]?.bind fun u =>
        if u then a.gtEntityOffsets[t]?.bind fun off =>
          a.entityDofOffsets[(off + e) * l.childCount + c]?.bind fun x =>
            if 0 < c then a.entityDofOffsets[(off + e) * l.childCount + c - 1]?.map fun y => x - y else some x
        else some 0
  else none

/-- localorderingbase.hh:340-348  `offset(gt,entity,child)` of an inner node (`none` also for a failing
assertion). -/
def Local.offset (l : Local) (t e c : Nat) : Option Nat :=
  if c < l.childCount then
    l.arrays.bind fun a => a.gtUsed[t]?.bind fun u =>
      if u then
        if a.fixed then
          if 0 < c then a.gtDofOffsets[t * l.childCount + c - 1]? else some 0
        else
          if 0 < c then a.gtEntityOffsets[t]?.bind fun off => a.entityDofOffsets[(off + e) * l.childCount + c - 1]?
          else some 0
      else none
  else none

/-- gridviewordering.hh:85-104 (fixed finite element maps), 176-186, 209-214, 233-250, 292-297, 329-344
and leaflocalordering.hh:100-162: a leaf. The two passes over the cells are the ones of the leaf
ordering (`LeafOrdering.Grid.scan`): leaflocalordering.hh:121-162 has the same loop over the local
keys and the same comparison of sizes as directleaflocalordering.hh:250-287. -/
def leafArrays (m : Mesh) (fem : Option (Nat → Nat)) (cells : List (List Key)) : Option Arrays :=
  match fem with
  | some s =>
    let sizes := (List.range m.types).map fun t => if 0 < m.count t then s t else 0
    some { fixed := true, gtUsed := sizes.map fun x => decide (0 < x), gtEntityOffsets := [],
           gtDofOffsets := sizes, entityDofOffsets := [] }
  | none =>
    let g : Grid := ⟨m.types, m.count, cells⟩
    g.scan.map fun sc =>
      { fixed := sc.possible, gtUsed := (List.range m.types).map g.gtUsed,
        gtEntityOffsets := g.gtEntityOffsets,
        -- gridviewordering.hh:334-337  GT_UNUSED is replaced by 0
        gtDofOffsets := sc.gtSizes.map fun o => o.getD 0,
        entityDofOffsets := if sc.possible then [] else sc.sizes }

/-- `std::partial_sum(it,it+k,it)`. Used for `nodeArrays`, gridviewordering.hh:106-160. -/
def runningSums (l : List Nat) : List Nat := (partialSums 0 l).tail

/-- gridviewordering.hh:106-160 (`update_fixed_size`), 188-192, 252-271 and 346-422
(`post_collect_used_geometry_types`, `post_extract_per_entity_sizes`): an inner node. Both ways to a
fixed size compute the same offsets; `_gt_entity_offsets`, which are not read for fixed sizes, are
given in both cases. -/
def nodeArrays (m : Mesh) (n : Nat) (child : Nat → Local) : Option Arrays :=
  let used := (List.range m.types).map fun t => (List.range n).any fun c => (child c).contains t
  let eo := partialSums 0 ((List.range m.types).map fun t => if used.getD t false then m.count t else 0)
  if (List.range n).all fun c => (child c).fixed then
    ((List.range m.types).mapM fun t =>
        ((List.range n).mapM fun c => (child c).size t 0).map runningSums).map fun offs =>
      { fixed := true, gtUsed := used, gtEntityOffsets := eo, gtDofOffsets := offs.flatten, entityDofOffsets := [] }
  else
    (((List.range m.types).filter fun t => used.getD t false).mapM fun t =>
        (List.range (eo.getD (t + 1) 0 - eo.getD t 0)).mapM fun e =>
          ((List.range n).mapM fun c => (child c).size t e).map runningSums).map fun offs =>
      { fixed := false, gtUsed := used, gtEntityOffsets := eo, gtDofOffsets := [],
        entityDofOffsets := offs.flatten.flatten }

/-- gridviewordering.hh:688-742  the local orderings after `update()`, children first. -/
def Space.localOrdering (m : Mesh) : Space → Local
  | .leaf fem cells => .leaf (leafArrays m fem cells)
  | .node blocked n child =>
    .node blocked (nodeArrays m n fun c => (child c).localOrdering m) n fun c => (child c).localOrdering m

/-- localorderingbase.hh:397-400, gridviewordering.hh:479  `disable_container_blocking()` of the root. -/
def Space.disableBlocking : Space → Space
  | .leaf fem cells => .leaf fem cells
  | .node _ n child => .node false n child

/-- `gfs.backend().blocked(gfs)` of the root. Used for `GVO`, gridviewordering.hh:814-832. -/
def Space.blocked : Space → Bool
  | .leaf _ _ => false
  | .node b _ _ => b

/-- gridviewordering.hh:814-832 and orderingbase.hh: members of the grid view ordering. -/
structure GVO where
  blocked : Bool
  fixed : Bool
  gtDofOffsets : List Nat
  gtEntityOffsets : List Nat
  entityDofOffsets : List Nat
  size : Nat
  blockCount : Nat
  loc : Local

/-- gridviewordering.hh:744-769  sizes and offsets for a fixed local ordering. -/
def updateFixed (m : Mesh) (blocked : Bool) (loc : Local) : Option GVO :=
  ((List.range m.types).mapM fun t => loc.size t 0).map fun sizes =>
    let offs := partialSums 0 ((List.range m.types).map fun t =>
      (if blocked then (if 0 < sizes.getD t 0 then 1 else 0) else sizes.getD t 0) * m.count t)
    { blocked := blocked, fixed := true, gtDofOffsets := offs, gtEntityOffsets := [], entityDofOffsets := [],
      size := ((List.range m.types).map fun t => sizes.getD t 0 * m.count t).sum,
      blockCount := offs.getLast?.getD 0, loc := loc }

/-- gridviewordering.hh:770-807  otherwise. -/
def updateVar (m : Mesh) (blocked : Bool) (loc : Local) : Option GVO :=
  let eo := partialSums 0 ((List.range m.types).map fun t => if loc.contains t then m.count t else 0)
  (((List.range m.types).filter fun t => loc.contains t).mapM fun t =>
      (List.range (eo.getD (t + 1) 0 - eo.getD t 0)).mapM fun e => loc.size t e).map fun ss =>
    let sizes := ss.flatten
    { blocked := blocked, fixed := false, gtDofOffsets := [], gtEntityOffsets := eo,
      entityDofOffsets := partialSums 0 (sizes.map fun s => if blocked then (if 0 < s then 1 else 0) else s),
      size := sizes.sum,
      blockCount := (sizes.map fun s => if 0 < s then 1 else 0).sum, loc := loc }

/-- gridviewordering.hh:688-810  `update()` of the grid view ordering of a space. -/
def update (m : Mesh) (s : Space) : Option GVO :=
  let loc := s.disableBlocking.localOrdering m
  if loc.fixed then updateFixed m s.blocked loc else updateVar m s.blocked loc

/-- `ci.back() += o`. Used for `Local.mapLocal`, localorderingbase.hh:73-107. -/
def addBack (o : Nat) : List Nat → Option (List Nat)
  | [] => none
  | b :: r => some ((b + o) :: r)

/-- localorderingbase.hh:73-107  `map_local_index`. -/
def Local.mapLocal : Local → Nat → Nat → List Nat → Option (List Nat)
  | .leaf _, _, _, [i] => some [i]
  | .leaf _, _, _, _ => none
  | .node _ _ _ _, _, _, [] => none
  | .node blocked a n child, t, e, c :: p =>
    if c < n then
      ((child c).mapLocal t e p).bind fun ci =>
        if blocked then some (c :: ci)
        else if 0 < c then
          a.bind fun a =>
            if a.fixed then a.gtDofOffsets[t * n + c - 1]?.bind fun o => addBack o ci
            else a.gtUsed[t]?.bind fun u =>
              if u then a.gtEntityOffsets[t]?.bind fun off =>
                a.entityDofOffsets[(off + e) * n + c - 1]?.bind fun o => addBack o ci
              else none
        else some ci
    else none

/-- gridviewordering.hh:574-602  `mapIndex`. -/
def GVO.mapIndex (g : GVO) (t e : Nat) (p : List Nat) : Option (List Nat) :=
  (g.loc.mapLocal t e p).bind fun ci =>
    if g.blocked then
      if g.fixed then g.gtDofOffsets[t]?.map fun off => (off + e) :: ci
      else g.gtEntityOffsets[t]?.bind fun off => g.entityDofOffsets[off + e]?.map fun b => b :: ci
    else
      if g.fixed then g.gtDofOffsets[t]?.bind fun off => (g.loc.size t e).bind fun s => addBack (off + e * s) ci
      else g.gtEntityOffsets[t]?.bind fun off => g.entityDofOffsets[off + e]?.bind fun o => addBack o ci

/-- `std::upper_bound` on a range that is partitioned by the value: number of leading entries `≤ v`.
`none` (undefined behaviour) if the range is not partitioned. Used for `Local.nodeSize`, localorderingbase.hh:285-337. -/
def upperBound (l : List Nat) (v : Nat) : Option Nat :=
  let k := (l.takeWhile fun x => decide (x ≤ v)).length
  if (l.drop k).all fun x => decide (v < x) then some k else none

/-- localorderingbase.hh:285-337  `node_size(suffix,entity)`. If the search for the child finds no offset
`≤ suffix.back()` the code decrements the begin iterator; the resulting distance -1 is taken at face
value here. `none`: undefined behaviour or a failing assertion. -/
def Local.nodeSize : Local → List Nat → Nat → Option Nat → Option Nat
  | l, [], t, e => e.elim (if l.fixed then l.size t 0 else none) (l.size t)
  | .leaf _, _ :: _, _, _ => some 0
  | .node blocked a n child, b :: suffix, t, e =>
    if blocked then
      if b < n then (child b).nodeSize suffix t e else none
    else
      a.bind fun a =>
        if a.fixed then
          (upperBound a.gtDofOffsets b).bind fun ub =>
            if t * n ≤ ub ∧ ub - t * n < n then (child (ub - t * n)).nodeSize (b :: suffix) t e else none
        else
          (upperBound a.entityDofOffsets b).bind fun ub => a.gtEntityOffsets[t]?.bind fun off => e.bind fun ei =>
            if (off + ei) * n ≤ ub ∧ ub - (off + ei) * n < n then
              (child (ub - (off + ei) * n)).nodeSize (b :: suffix) t e
            else none

/-- gridviewordering.hh:516-554  `size(suffix)`; `maxDepth` is `ContainerIndex::max_depth`. With a fixed
size the entity index passed down is an invalid number, which must not be used (`none`). -/
def GVO.sizeOf (g : GVO) (maxDepth : Nat) (suffix : List Nat) : Option Nat :=
  if suffix.length = maxDepth then some 0
  else match suffix with
    | [] => some g.blockCount
    | b :: rest =>
      let suffix' := if g.blocked then rest else b :: rest
      if g.fixed then
        (upperBound g.gtDofOffsets b).bind fun ub =>
          if 0 < ub then g.loc.nodeSize suffix' (ub - 1) none else none
      else
        (upperBound g.entityDofOffsets b).bind fun ub =>
          if 0 < ub then
            (upperBound g.gtEntityOffsets (ub - 1)).bind fun gub =>
              if 0 < gub then g.gtEntityOffsets[gub - 1]?.bind fun off =>
                if off ≤ ub - 1 then g.loc.nodeSize suffix' (gub - 1) (some (ub - 1 - off)) else none
              else none
          else none

end Verif.GridViewOrdering
