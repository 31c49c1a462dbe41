import Verif.Model.Ordering
/-
Model of the ordering of a single (leaf) function space on a grid view.
Sources under /repo/dune/pdelab/ordering: leafgridviewordering.hh, leaforderingbase.hh,
directleaflocalordering.hh.
-/
namespace Verif.LeafOrdering
open Orderings (partialSums)

/-- A local key of a finite element on a cell, already translated to the grid: global geometry type
index and entity index of the sub-entity (`ref_el.type(key.subEntity(),key.codim())`,
`indexSet().subIndex(...)`, directleaflocalordering.hh:265-270) and `key.index()`. -/
structure Key where
  gt : Nat
  entity : Nat
  index : Nat
deriving Repr, DecidableEq

/-- What the ordering reads from the grid and the finite element map: the number of global geometry type
indices, `indexSet().size(gt)` for every one of them (0 if the type does not occur) and the local keys
of the finite element of every cell, cells in iteration order. Used for `Grid.gtUsed`, directleaflocalordering.hh:198-231. -/
structure Grid where
  types : Nat
  count : Nat → Nat
  cells : List (List Key)

/-- directleaflocalordering.hh:198-231  `_gt_used` after visiting all cells. -/
def Grid.gtUsed (g : Grid) (t : Nat) : Bool := g.cells.any fun c => c.any fun k => k.gt == t

/-- directleaflocalordering.hh:233-247  `_gt_entity_offsets`. -/
def Grid.gtEntityOffsets (g : Grid) : List Nat :=
  partialSums 0 ((List.range g.types).map fun t => if g.gtUsed t then g.count t else 0)

/-- State of the second pass over the cells: `_entity_dof_offsets[i+1]` is `sizes[i]`
(entry 0 of the array stays 0), `_gt_dof_sizes` with `none` for `GT_UNUSED`,
`_fixed_size_possible`. Used for `cellStep`, directleaflocalordering.hh:250-287. -/
structure Scan where
  sizes : List Nat
  gtSizes : List (Option Nat)
  possible : Bool
deriving Repr, DecidableEq

/-- directleaflocalordering.hh:263-272  one iteration of the loop over the local keys; the state is the
array of entity sizes and `_local_gt_dof_sizes`. `none`: index out of range. -/
def keyStep (offsets : List Nat) (s : List Nat × List Nat) (k : Key) : Option (List Nat × List Nat) :=
  offsets[k.gt]?.bind fun off => s.1[off + k.entity]?.bind fun old =>
    if k.gt < s.2.length then
      let new := max old (k.index + 1)
      some (s.1.set (off + k.entity) new, s.2.set k.gt new)
    else none

/-- directleaflocalordering.hh:274-286  comparing the sizes of a cell with the ones recorded so far;
stops at the first mismatch. -/
def compareSizes : List (Option Nat) → List Nat → List (Option Nat) × Bool
  | none :: gs, l :: ls => ((some l :: (compareSizes gs ls).1), (compareSizes gs ls).2)
  | some s :: gs, l :: ls =>
    if s ≠ l then (some s :: gs, false)
    else ((some s :: (compareSizes gs ls).1), (compareSizes gs ls).2)
  | gs, _ => (gs, true)

/-- directleaflocalordering.hh:250-287  `extract_per_entity_sizes_from_cell`. (If a fixed size is no
longer possible `_local_gt_dof_sizes` is not reset and not used.) -/
def cellStep (types : Nat) (offsets : List Nat) (s : Scan) (cell : List Key) : Option Scan :=
  (cell.foldlM (keyStep offsets) (s.sizes, List.replicate types 0)).map fun r =>
    if s.possible then
      { sizes := r.1, gtSizes := (compareSizes s.gtSizes r.2).1, possible := (compareSizes s.gtSizes r.2).2 }
    else { s with sizes := r.1 }

/-- directleaflocalordering.hh:198-209, 233-247 and leafgridviewordering.hh:153-158  the whole second pass. -/
def Grid.scan (g : Grid) : Option Scan :=
  g.cells.foldlM (cellStep g.types g.gtEntityOffsets)
    { sizes := List.replicate (g.gtEntityOffsets.getLast?.getD 0) 0,
      gtSizes := List.replicate g.types none, possible := true }

/-- The members of the leaf ordering and its local ordering after `update()`. Used for `mkFixed`, leafgridviewordering.hh:166-184. -/
structure Leaf where
  blocked : Bool
  fixed : Bool
  gtUsed : List Bool
  gtDofSizes : List Nat
  gtDofOffsets : List Nat
  gtEntityOffsets : List Nat
  entityDofOffsets : List Nat
  size : Nat
  blockCount : Nat
deriving Repr, DecidableEq

/-- leafgridviewordering.hh:166-184  sizes and offsets if all entities of a type have the same size. -/
def mkFixed (g : Grid) (blocked : Bool) (gtUsed : List Bool) (gtDofSizes gtEntityOffsets : List Nat) : Leaf :=
  let offs := partialSums 0 ((List.range g.types).map fun t =>
    let s := gtDofSizes.getD t 0
    (if blocked then (if 0 < s then 1 else 0) else s) * g.count t)
  { blocked := blocked, fixed := true, gtUsed := gtUsed, gtDofSizes := gtDofSizes, gtDofOffsets := offs,
    gtEntityOffsets := gtEntityOffsets, entityDofOffsets := [],
    size := ((List.range g.types).map fun t => gtDofSizes.getD t 0 * g.count t).sum,
    blockCount := offs.getLast?.getD 0 }

/-- leafgridviewordering.hh:120-199 with directleaflocalordering.hh:161-320  `update()`. `femSize` is
`some s` if the finite element map has a fixed number `s t` of DOFs per geometry type
(`fixedSize()`, `size(gt)`), else `none`. Codim bookkeeping and `maxLocalSize` are left out. -/
def Grid.update (g : Grid) (blocked : Bool) (femSize : Option (Nat → Nat)) : Option Leaf :=
  match femSize with
  | some s =>
    -- directleaflocalordering.hh:174-193; sizes of types that do not occur in the grid stay 0
    let sizes := (List.range g.types).map fun t => if 0 < g.count t then s t else 0
    some (mkFixed g blocked (sizes.map fun x => decide (0 < x)) sizes [])
  | none =>
    let used := (List.range g.types).map g.gtUsed
    g.scan.map fun sc =>
      if sc.possible then
        -- directleaflocalordering.hh:292-303
        mkFixed g blocked used (sc.gtSizes.map fun o => o.getD 0) g.gtEntityOffsets
      else
        -- directleaflocalordering.hh:305-310, leafgridviewordering.hh:186-189
        let offs := partialSums 0 sc.sizes
        { blocked := blocked, fixed := false, gtUsed := used, gtDofSizes := sc.gtSizes.map fun o => o.getD 0,
          gtDofOffsets := [], gtEntityOffsets := g.gtEntityOffsets, entityDofOffsets := offs,
          size := offs.getLast?.getD 0, blockCount := offs.getLast?.getD 0 }

/-- leaforderingbase.hh:97-141  `mapIndex` of DOF number `i` on entity `e` of geometry type `t`; the last
entry (`back()`) of the container index first. `none`: index out of range. The capacity test of the
blocked branches is left out. -/
def Leaf.mapIndex (l : Leaf) (t e i : Nat) : Option (List Nat) :=
  if l.fixed then
    l.gtDofOffsets[t]?.bind fun off =>
      if l.blocked then some [off + e, i]
      else l.gtDofSizes[t]?.map fun s => [i + (off + e * s)]
  else
    l.gtEntityOffsets[t]?.bind fun off =>
      if l.blocked then some [off + e, i]
      else l.entityDofOffsets[off + e]?.map fun o => [i + o]

/-- directleaflocalordering.hh:101-121  `size(gt,entity)`. -/
def Leaf.entitySize (l : Leaf) (t e : Nat) : Option Nat :=
  if l.fixed then l.gtDofSizes[t]?
  else l.gtUsed[t]?.bind fun u =>
    if u then
      l.gtEntityOffsets[t]?.bind fun off => l.entityDofOffsets[off + e]?.bind fun a =>
        l.entityDofOffsets[off + e + 1]?.map fun b => b - a
    else some 0

/-- leaforderingbase.hh:206-262  `extract_entity_indices`: all container indices of an entity. -/
def Leaf.extractEntityIndices (l : Leaf) (t e : Nat) : Option (List (List Nat)) :=
  l.gtUsed[t]?.bind fun u =>
    if u then
      if l.fixed then
        l.gtDofSizes[t]?.bind fun size => l.gtDofOffsets[t]?.map fun off =>
          if l.blocked then (List.range size).map fun i => [off + e, i]
          else (List.range size).map fun i => [i + (off + e * size)]
      else
        l.gtEntityOffsets[t]?.bind fun off => l.entityDofOffsets[off + e + 1]?.bind fun b =>
          l.entityDofOffsets[off + e]?.map fun a =>
            if l.blocked then (List.range (b - a)).map fun i => [off + e, i]
            else (List.range (b - a)).map fun i => [i + a]
    else some []

end Verif.LeafOrdering
