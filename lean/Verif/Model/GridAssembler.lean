/-
Model of the grid traversal of the default assembler: the sequence of calls into the assembler engine.
Sources: dune/pdelab/gridoperator/default/assembler.hh, fastdg/assembler.hh (the same loop over the cells of the engine's
partition, with one more condition for visiting a face, `interiorOnly`) and dune/pdelab/common/intersectiontype.hh.

A grid is the list of its cells in traversal order with their intersections in iteration order. `face` names the
geometric face an intersection belongs to (it is not used by the code; it makes it possible to say that two
intersections are the two sides of the same face).
-/
namespace Verif.GridAssembler

/-- intersectiontype.hh:13-22. -/
inductive IType where
  | processor | skeleton | boundary | periodic
deriving DecidableEq, Repr

/-- What the assembler sees of an intersection. Used for `classify`, intersectiontype.hh:36-53. -/
structure Isect where
  face : Nat
  neighbor : Bool
  boundary : Bool
  /-- unique index of the outside cell (if there is one) -/
  outside : Nat
  /-- the outside cell belongs to the partitions of the entity set -/
  outsideContained : Bool
  /-- the outside cell is an interior cell of this process -/
  outsideInterior : Bool
deriving DecidableEq, Repr

/-- A cell with its unique index. Used for `visitCell`, assembler.hh:117-273. -/
structure Cell where
  id : Nat
  isects : List Isect
deriving DecidableEq, Repr

/-- intersectiontype.hh:36-53  `classifyIntersection`. `1*neighbor + 2*boundary` is cast to the enum. -/
def classify (allPartitions : Bool) (i : Isect) : IType :=
  let type : IType := match i.neighbor, i.boundary with
    | false, false => .processor
    | true, false => .skeleton
    | false, true => .boundary
    | true, true => .periodic
  if type = .skeleton ∨ type = .periodic then
    if allPartitions then type
    else if i.outsideContained then type else .processor
  else type

/-- The calls of the assembler into the engine. Used for `visitIsect`, assembler.hh:164-252. -/
inductive Kind where
  | preAssembly | onBindLFSV | assembleVVolume | onBindLFSUV | loadInside | assembleUVVolume
  | onBindLFSVOutside | assembleVSkeleton | onBindLFSUVOutside | loadOutside | assembleUVSkeleton
  | onUnbindLFSUVOutside | onUnbindLFSVOutside
  | assembleVBoundary | assembleUVBoundary | assembleVProcessor | assembleUVProcessor
  | assembleVVolumePostSkeleton | assembleUVVolumePostSkeleton
  | onUnbindLFSUV | onUnbindLFSV | postAssembly
deriving DecidableEq, Repr

/-- One call: the cell the inside spaces are bound to, the intersection (its face and the index handed over in the
`IntersectionGeometry`) and the cell the outside spaces are bound to. Used for `visitIsect`, assembler.hh:164-252. -/
structure Event where
  kind : Kind
  cell : Nat := 0
  face : Nat := 0
  index : Nat := 0
  outside : Nat := 0
deriving DecidableEq, Repr

/-- The answers of an engine to the queries of the assembler. Source: the queries in gridoperator/default/assembler.hh:91-110, 123, 161. -/
structure Engine where
  uvSkeleton : Bool
  vSkeleton : Bool
  uvBoundary : Bool
  vBoundary : Bool
  uvPost : Bool
  vPost : Bool
  twoSided : Bool
  /-- fastdg/assembler.hh: the engine's partition is `interiorBorder`; false for the default assembler -/
  interiorOnly : Bool
  skipEntity : Nat → Bool
  /-- cell, face and index of the intersection -/
  skipIntersection : Nat → Nat → Nat → Bool

variable (E : Engine) (allPartitions : Bool)

/-- default/assembler.hh:181, fastdg/assembler.hh:185-188  `visit_face`. -/
def visitFace (c : Nat) (i : Isect) : Bool :=
  decide (c > i.outside) || E.twoSided || (E.interiorOnly && !i.outsideInterior)

/-- assembler.hh:164-252  the calls for one intersection that is not skipped. (assembler.hh:106-107: the processor
terms use the boundary flags.) -/
def visitIsect (c : Nat) (index : Nat) (i : Isect) : List Event :=
  match classify allPartitions i with
  | .skeleton | .periodic =>
    if E.uvSkeleton || E.vSkeleton then
      if visitFace E c i then
        [⟨.onBindLFSVOutside, c, i.face, index, i.outside⟩, ⟨.assembleVSkeleton, c, i.face, index, i.outside⟩] ++
        (if E.uvSkeleton then
          [⟨.onBindLFSUVOutside, c, i.face, index, i.outside⟩, ⟨.loadOutside, c, i.face, index, i.outside⟩,
            ⟨.assembleUVSkeleton, c, i.face, index, i.outside⟩, ⟨.onUnbindLFSUVOutside, c, i.face, index, i.outside⟩]
        else []) ++
        [⟨.onUnbindLFSVOutside, c, i.face, index, i.outside⟩]
      else []
    else []
  | .boundary =>
    if E.uvBoundary || E.vBoundary then
      [⟨.assembleVBoundary, c, i.face, index, 0⟩] ++
      (if E.uvBoundary then [⟨.assembleUVBoundary, c, i.face, index, 0⟩] else [])
    else []
  | .processor =>
    if E.uvBoundary || E.vBoundary then
      [⟨.assembleVProcessor, c, i.face, index, 0⟩] ++
      (if E.uvBoundary then [⟨.assembleUVProcessor, c, i.face, index, 0⟩] else [])
    else []

/-- assembler.hh:155-255  the loop over the intersections; a skipped intersection leaves the loop body before the counter
is incremented. -/
def loopIsects (c : Nat) : Nat → List Isect → List Event
  | _, [] => []
  | index, i :: is =>
    if E.skipIntersection c i.face index then loopIsects c index is
    else visitIsect E allPartitions c index i ++ loopIsects c (index + 1) is

/-- assembler.hh:117-273  the loop body for one cell. -/
def visitCell (c : Cell) : List Event :=
  if E.skipEntity c.id then []
  else
    [⟨.onBindLFSV, c.id, 0, 0, 0⟩, ⟨.assembleVVolume, c.id, 0, 0, 0⟩, ⟨.onBindLFSUV, c.id, 0, 0, 0⟩,
      ⟨.loadInside, c.id, 0, 0, 0⟩, ⟨.assembleUVVolume, c.id, 0, 0, 0⟩] ++
    (if E.uvSkeleton || E.vSkeleton || E.uvBoundary || E.vBoundary then loopIsects E allPartitions c.id 0 c.isects else []) ++
    (if E.uvPost || E.vPost then
      [⟨.assembleVVolumePostSkeleton, c.id, 0, 0, 0⟩] ++
      (if E.uvPost then [⟨.assembleUVVolumePostSkeleton, c.id, 0, 0, 0⟩] else [])
    else []) ++
    [⟨.onUnbindLFSUV, c.id, 0, 0, 0⟩, ⟨.onUnbindLFSV, c.id, 0, 0, 0⟩]

/-- assembler.hh:84-279  `assemble`: all calls into the engine, in order. -/
def assemble (grid : List Cell) : List Event :=
  [⟨.preAssembly, 0, 0, 0, 0⟩] ++ grid.flatMap (visitCell E allPartitions) ++ [⟨.postAssembly, 0, 0, 0, 0⟩]

end Verif.GridAssembler
