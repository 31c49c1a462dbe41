import Verif.Model.GridAssembler
/-
Faces of a grid, and the protocol the engines rely on.
-/
namespace Verif.GridAssembler

/-- All intersections that belong to a face, with the cell they are seen from. -/
def sides (grid : List Cell) (f : Nat) : List (Cell × Isect) :=
  grid.flatMap fun c => (c.isects.filter fun i => i.face = f).map fun i => (c, i)

/-- The intersection has a neighbour that takes part in the assembly. -/
def Interior (allPartitions : Bool) (i : Isect) : Prop :=
  i.neighbor = true ∧ (allPartitions = true ∨ i.outsideContained = true)

/-- `f` is an interior face between two different cells: it has exactly two sides, each seeing the other,
and both cells belong to this process. -/
def InteriorFace (allPartitions : Bool) (grid : List Cell) (f : Nat) (c₁ c₂ : Cell) : Prop :=
  ∃ i₁ i₂, sides grid f = [(c₁, i₁), (c₂, i₂)] ∧ i₁.outside = c₂.id ∧ i₂.outside = c₁.id ∧ c₁.id ≠ c₂.id ∧
    Interior allPartitions i₁ ∧ Interior allPartitions i₂ ∧ i₁.outsideInterior = true ∧ i₂.outsideInterior = true

/-- `f` is a face between a traversed interior cell `c` and a cell of another process (which is not traversed). -/
def ProcessFace (allPartitions : Bool) (grid : List Cell) (f : Nat) (c : Cell) : Prop :=
  ∃ i, sides grid f = [(c, i)] ∧ Interior allPartitions i ∧ i.outsideInterior = false

/-- `f` is a domain boundary face of the cell `c`. -/
def BoundaryFace (grid : List Cell) (f : Nat) (c : Cell) : Prop :=
  ∃ i, sides grid f = [(c, i)] ∧ i.neighbor = false ∧ i.boundary = true

/-- How often a method is called for a face. -/
def calls (k : Kind) (f : Nat) (t : List Event) : Nat := t.countP fun e => decide (e.kind = k ∧ e.face = f)

/-- How often a method is called for a cell. -/
def cellCalls (k : Kind) (c : Nat) (t : List Event) : Nat := t.countP fun e => decide (e.kind = k ∧ e.cell = c)

/-- What an engine may assume to be set up. -/
inductive Protocol where
  | start
  | ready
  /-- test space bound to the cell, before / after the trial space -/
  | vBound (c : Nat)
  | uvBound (c : Nat)
  /-- coefficients loaded -/
  | loaded (c : Nat)
  /-- in addition the neighbour's test space -/
  | vOutside (c n : Nat)
  | uvOutside (c n : Nat)
  | outsideLoaded (c n : Nat)
  | done
deriving DecidableEq, Repr

/-- Which call is legal in which state. Every assembly method needs the spaces of exactly the cell (and neighbour) it is
called for to be bound and, if it uses the trial space, the coefficients to be loaded. -/
def Protocol.step : Protocol → Event → Option Protocol
  | .start, ⟨.preAssembly, _, _, _, _⟩ => some .ready
  | .ready, ⟨.onBindLFSV, c, _, _, _⟩ => some (.vBound c)
  | .ready, ⟨.postAssembly, _, _, _, _⟩ => some .done
  | .vBound c, ⟨.assembleVVolume, c', _, _, _⟩ => if c' = c then some (.vBound c) else none
  | .vBound c, ⟨.onBindLFSUV, c', _, _, _⟩ => if c' = c then some (.uvBound c) else none
  | .vBound c, ⟨.onUnbindLFSV, c', _, _, _⟩ => if c' = c then some .ready else none
  | .uvBound c, ⟨.loadInside, c', _, _, _⟩ => if c' = c then some (.loaded c) else none
  | .loaded c, ⟨.onBindLFSVOutside, c', _, _, n⟩ => if c' = c then some (.vOutside c n) else none
  | .loaded c, ⟨.onUnbindLFSUV, c', _, _, _⟩ => if c' = c then some (.vBound c) else none
  | .loaded c, ⟨k, c', _, _, _⟩ =>
    if c' = c ∧ k ∈ [Kind.assembleUVVolume, .assembleVBoundary, .assembleUVBoundary, .assembleVProcessor,
      .assembleUVProcessor, .assembleVVolumePostSkeleton, .assembleUVVolumePostSkeleton] then some (.loaded c) else none
  | .vOutside c n, ⟨.assembleVSkeleton, c', _, _, n'⟩ => if c' = c ∧ n' = n then some (.vOutside c n) else none
  | .vOutside c n, ⟨.onBindLFSUVOutside, c', _, _, n'⟩ => if c' = c ∧ n' = n then some (.uvOutside c n) else none
  | .vOutside c n, ⟨.onUnbindLFSVOutside, c', _, _, n'⟩ => if c' = c ∧ n' = n then some (.loaded c) else none
  | .uvOutside c n, ⟨.loadOutside, c', _, _, n'⟩ => if c' = c ∧ n' = n then some (.outsideLoaded c n) else none
  | .outsideLoaded c n, ⟨.assembleUVSkeleton, c', _, _, n'⟩ =>
    if c' = c ∧ n' = n then some (.outsideLoaded c n) else none
  | .outsideLoaded c n, ⟨.onUnbindLFSUVOutside, c', _, _, n'⟩ => if c' = c ∧ n' = n then some (.vOutside c n) else none
  | _, _ => none

end Verif.GridAssembler
