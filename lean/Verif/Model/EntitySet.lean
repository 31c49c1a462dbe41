/-
Model of the entity sets, the element mapper and the cache of border entities.

Sources: dune/pdelab/common/partitionviewentityset.hh, dune/pdelab/common/elementmapper.hh, dune/pdelab/common/borderindexidcache.hh
(under /repo).

Simplifications: geometry types are their number in `GlobalGeometryTypeIndex` (`LocalGeometryTypeIndex` for the element mapper); indices are
unbounded, and the invalid index is `none`. Access out of the bounds of a vector is `none`.
-/
namespace Verif.EntitySet

/-- `std::partial_sum` in place. Used for `mapperUpdate`, elementmapper.hh:35-48. -/
def partialSum : Nat → List Nat → List Nat
  | _, [] => []
  | acc, x :: xs => (acc + x) :: partialSum (acc + x) xs

/-! ### ElementMapper -/

/-- `ElementMapperBase::update`, elementmapper.hh:35-48, on offsets of any previous content. -/
def mapperUpdate (types : List Nat) (size : Nat → Nat) (offsets : List Nat) : List Nat :=
  partialSum 0 (types.foldl (fun o gt => o.set (gt + 1) (size gt)) (offsets.map fun _ => 0))

/-- `ElementMapperBase::ElementMapperBase`, elementmapper.hh:55-60. -/
def mapperInit (nTypes : Nat) (types : List Nat) (size : Nat → Nat) : List Nat :=
  mapperUpdate types size (List.replicate (nTypes + 1) 0)

/-- `ElementMapperBase::map`, elementmapper.hh:50-53, for an element of a type with an index. -/
def mapperMap (offsets : List Nat) (gt index : Nat) : Nat := offsets.getD gt 0 + index

/-! ### The grid -/

/-- `PartitionType` of dune-grid. Used for `visitEntity`, partitionviewentityset.hh:580-586. -/
inductive Part where
  | interior | border | overlap | front | ghost
  deriving DecidableEq, Repr

/-- What is used of an entity: its type, its index in the index set of the grid view, its partition and its global id.
Used for `visitEntity`, partitionviewentityset.hh:580-586. -/
structure Ent where
  gt : Nat
  index : Nat
  part : Part
  id : Nat
  deriving DecidableEq, Repr

/-- What is used of a grid view: its dimension, `GlobalGeometryTypeIndex::size(dim)`, `GlobalGeometryTypeIndex::offset(d)`, the
dimensions of geometry types, the types and sizes of its index set, its entities and the sub-entities of its elements as (type, index).
Used for `addType`, partitionviewentityset.hh:388-394. -/
structure Grid where
  dim : Nat
  nTypes : Nat
  offset : Nat → Nat
  dimOf : Nat → Nat
  types : Nat → List Nat
  size : Nat → Nat
  entities : Nat → List Ent
  sub : Ent → Nat → List (Nat × Nat)

/-! ### PartitionViewEntitySet -/

/-- The data members of `PartitionViewEntitySetIndexSetBase` and `PartitionViewEntitySetIndexSet`, partitionviewentityset.hh:502-513 and
701. -/
structure State where
  needsUpdate : Bool
  wanted : Nat → Bool
  activeTypes : Nat → Bool
  active : Nat → Bool
  gtOffsets : List Nat
  mapped : List Nat
  geometryTypes : List Nat
  perCodim : Nat → List Nat
  indices : List (Option Nat)

/-- The constructor of the base, partitionviewentityset.hh:466-470, with any content of the arrays that are not initialised. -/
def State.construct (wanted : Nat → Bool) (gtOffsets mapped : List Nat) : State :=
  ⟨true, wanted, fun _ => false, fun _ => false, gtOffsets, mapped, [], fun _ => [], []⟩

/-- One geometry type in the loop of `update`, partitionviewentityset.hh:388-394. -/
def addType (g : Grid) (s : State) (gt : Nat) : State :=
  { s with
    gtOffsets := s.gtOffsets.set (gt + 1) (g.size gt)
    geometryTypes := s.geometryTypes ++ [gt]
    activeTypes := fun t => if t = gt then true else s.activeTypes t }

/-- `std::equal_range` for the types of a codimension, partitionviewentityset.hh:396-408, by linear search: all elements after those of
higher dimension and before those of lower dimension. -/
def equalRange (g : Grid) (types : List Nat) (codim : Nat) : List Nat :=
  (types.dropWhile fun t => g.dim - codim < g.dimOf t).takeWhile fun t => !(g.dimOf t < g.dim - codim)

/-- `PartitionViewEntitySetIndexSetBase::update`, partitionviewentityset.hh:376-414. -/
def baseUpdate (g : Grid) (force : Bool) (s : State) : State × Bool :=
  if !(s.needsUpdate || force) then (s, false)
  else
    let s := { s with
      gtOffsets := s.gtOffsets.map fun _ => 0, mapped := s.mapped.map fun _ => 0, activeTypes := fun _ => false, geometryTypes := [] }
    let s := (List.range (g.dim + 1)).foldl
      (fun s codim => if !s.wanted codim then s else (g.types codim).foldl (addType g) s) s
    let s := { s with perCodim := fun c => if c ≤ g.dim then equalRange g s.geometryTypes c else [] }
    ({ s with gtOffsets := partialSum 0 s.gtOffsets, active := s.wanted, needsUpdate := false }, true)

/-- `_indices[p] = _mapped_gt_offsets[gt+1]++`. Used for `visitEntity`, partitionviewentityset.hh:580-586. -/
def assignIndex (gt p : Nat) (s : State) : State :=
  { s with
    indices := s.indices.set p (some (s.mapped.getD (gt + 1) 0))
    mapped := s.mapped.set (gt + 1) (s.mapped.getD (gt + 1) 0 + 1) }

/-- The body of the loop over the entities, partitionviewentityset.hh:580-586. -/
def visitEntity (P : Part → Bool) (s : State) (e : Ent) : State :=
  if P e.part then assignIndex e.gt (s.gtOffsets.getD e.gt 0 + e.index) s else s

/-- `update_codims(std::true_type)`, partitionviewentityset.hh:568-588. -/
def updateCodims (g : Grid) (P : Part → Bool) (s : State) : State :=
  (List.range (g.dim + 1)).foldl (fun s codim => if s.active codim then (g.entities codim).foldl (visitEntity P) s else s) s

/-- The body of the loop over the sub-entities, partitionviewentityset.hh:610-617. -/
def visitSub (s : State) (x : Nat × Nat) : State :=
  if s.indices.getD (s.gtOffsets.getD x.1 0 + x.2) none = none then assignIndex x.1 (s.gtOffsets.getD x.1 0 + x.2) s else s

/-- The loop over the codimensions of an element, partitionviewentityset.hh:599-618. -/
def visitElement (g : Grid) (P : Part → Bool) (s : State) (e : Ent) : State :=
  if !P e.part then s
  else (List.range (g.dim + 1)).foldl (fun s codim => if !s.active codim then s else (g.sub e codim).foldl visitSub s) s

/-- `update_codims(std::false_type)`, partitionviewentityset.hh:591-620, for grids without iterators for all codimensions. -/
def updateCodimsFallback (g : Grid) (P : Part → Bool) (s : State) : State :=
  (g.entities 0).foldl (visitElement g P) { s with indices := s.indices.map fun _ => none }

/-- `PartitionViewEntitySetIndexSet::update`, partitionviewentityset.hh:557-566; `iterators` is `hasAllEntityIterators()`. -/
def update (g : Grid) (P : Part → Bool) (iterators force : Bool) (s : State) : State × Bool :=
  let r := baseUpdate g force s
  if !r.2 then (r.1, false)
  else
    let s := r.1
    let s := { s with indices := List.replicate (s.gtOffsets.getD (s.gtOffsets.length - 1) 0) none, mapped := s.mapped.set 0 0 }
    let s := if iterators then updateCodims g P s else updateCodimsFallback g P s
    ({ s with mapped := partialSum 0 s.mapped }, true)

/-- `PartitionViewEntitySetIndexSet<GV,Partitions::All>::update`, partitionviewentityset.hh:729-738. -/
def updateAll (g : Grid) (force : Bool) (s : State) : State × Bool :=
  let r := baseUpdate g force s
  if !r.2 then (r.1, false)
  else
    let s := r.1
    let s := { s with mapped := s.mapped.set 0 0 }
    let s := { s with mapped := s.geometryTypes.foldl (fun m gt => m.set (gt + 1) (g.size gt)) s.mapped }
    ({ s with mapped := partialSum 0 s.mapped }, true)

/-- `reset`, partitionviewentityset.hh:484-488. -/
def reset (s : State) : State := { s with needsUpdate := true, wanted := fun _ => false }

/-- `_wanted_codims != _active_codims || _wanted_codims.none()`, partitionviewentityset.hh:493 and 499. -/
def masksDiffer (dim : Nat) (wanted active : Nat → Bool) : Bool :=
  (List.range (dim + 1)).any (fun c => wanted c != active c) || (List.range (dim + 1)).all (fun c => !wanted c)

/-- `addCodim`, partitionviewentityset.hh:490-494. -/
def addCodim (dim codim : Nat) (s : State) : State :=
  let wanted := fun c => if c = codim then true else s.wanted c
  { s with wanted := wanted, needsUpdate := masksDiffer dim wanted s.active }

/-- `removeCodim`, partitionviewentityset.hh:496-500. -/
def removeCodim (dim codim : Nat) (s : State) : State :=
  let wanted := fun c => if c = codim then false else s.wanted c
  { s with wanted := wanted, needsUpdate := masksDiffer dim wanted s.active }

/-- `size(GeometryType)`, partitionviewentityset.hh:418-423. -/
def State.sizeOfType (s : State) (gt : Nat) : Nat := s.mapped.getD (gt + 1) 0 - s.mapped.getD gt 0

/-- `size(dim_type)`, partitionviewentityset.hh:425-431. -/
def State.sizeOfCodim (g : Grid) (s : State) (codim : Nat) : Nat :=
  s.mapped.getD (g.offset (g.dim - codim + 1)) 0 - s.mapped.getD (g.offset (g.dim - codim)) 0

/-- `contains(const Entity&)`, partitionviewentityset.hh:433-437, for an entity of the grid view. -/
def State.contains (P : Part → Bool) (_ : State) (e : Ent) : Bool := P e.part

/-- `index(e)`, partitionviewentityset.hh:622-630: `none` if an assertion fails or the index is invalid. -/
def State.index (P : Part → Bool) (s : State) (e : Ent) : Option Nat :=
  if s.needsUpdate || !P e.part || !s.activeTypes e.gt then none
  else s.indices.getD (s.gtOffsets.getD e.gt 0 + e.index) none

/-- `uniqueIndex(e)`, partitionviewentityset.hh:666-674. -/
def State.uniqueIndex (P : Part → Bool) (s : State) (e : Ent) : Option Nat :=
  (s.index P e).map (· + s.mapped.getD e.gt 0)

/-- `index(e)` for all partitions, partitionviewentityset.hh:752-757. -/
def State.indexAll (s : State) (e : Ent) : Option Nat := if !s.activeTypes e.gt then none else some e.index

/-- `uniqueIndex(e)` for all partitions, partitionviewentityset.hh:766-771. -/
def State.uniqueIndexAll (s : State) (e : Ent) : Option Nat :=
  if !s.activeTypes e.gt then none else some (e.index + s.mapped.getD e.gt 0)

/-! ### BorderIndexIdCache -/

/-- The data members of `BorderIndexIdCache`, borderindexidcache.hh:150-154. -/
structure Cache where
  border : Nat → List Bool
  indexToId : Nat → Nat → Option Nat
  idToIndex : Nat → Option (Nat × Nat)

/-- A cache without content. Source: the members borderindexidcache.hh:150-154 before `update`. -/
def Cache.empty : Cache := ⟨fun _ => [], fun _ _ => none, fun _ => none⟩

/-- `std::vector::resize`. Used for `Cache.cleanType`, borderindexidcache.hh:105-109. -/
def resize (l : List Bool) (n : Nat) : List Bool := l.take n ++ List.replicate (n - l.length) false

/-- Cleaning of the data of a type, borderindexidcache.hh:105-109. -/
def Cache.cleanType (g : Grid) (c : Cache) (gt : Nat) : Cache :=
  { c with
    border := fun t => if t = gt then resize (c.border t) (g.size t) else c.border t
    indexToId := fun t i => if t = gt then none else c.indexToId t i }

/-- Cleaning of all types, borderindexidcache.hh:98-110. -/
def Cache.clean (g : Grid) (used : Nat → Bool) (c : Cache) : Cache :=
  ((List.range g.dim).map (· + 1)).foldl (fun c codim => if !used codim then c else (g.types codim).foldl (Cache.cleanType g) c) c

/-- One interior or border entity, borderindexidcache.hh:167-180. -/
def Cache.visit (c : Cache) (e : Ent) : Cache :=
  let c := { c with border := fun t => if t = e.gt then (c.border t).set e.index (e.part == .border) else c.border t }
  if e.part == .border then
    { c with
      indexToId := fun t i => if t = e.gt ∧ i = e.index then some e.id else c.indexToId t i
      idToIndex := fun id => if id = e.id then some (e.gt, e.index) else c.idToIndex id }
  else c

/-- `create_for_codim`, borderindexidcache.hh:156-201: from the vertices to the facets. -/
def Cache.create (g : Grid) (used : Nat → Bool) (c : Cache) : Cache :=
  ((List.range g.dim).map fun i => g.dim - i).foldl
    (fun c codim =>
      if used codim then ((g.entities codim).filter fun e => e.part == .interior || e.part == .border).foldl Cache.visit c else c) c

/-- `update`, borderindexidcache.hh:91-112, for an entity set with the index set of the grid view. -/
def Cache.update (g : Grid) (used : Nat → Bool) (c : Cache) : Cache := (c.clean g used).create g used

/-- `isBorderEntity`, borderindexidcache.hh:114-117. -/
def Cache.isBorderEntity (c : Cache) (gt index : Nat) : Bool := (c.border gt).getD index false

/-- `id`, borderindexidcache.hh:119-127; `none` is an exception. -/
def Cache.id (c : Cache) (gt index : Nat) : Option Nat := c.indexToId gt index

/-- `findIndex` and `index`, borderindexidcache.hh:129-146. -/
def Cache.findIndex (c : Cache) (id : Nat) : Option (Nat × Nat) := c.idToIndex id

end Verif.EntitySet
