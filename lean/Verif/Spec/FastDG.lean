import Verif.Model.FastDG
import Verif.Spec.GridAssembler
/-
What an assembly is supposed to compute: the initial vector plus everything the local operator accumulates, each method applied to the
coefficients of the vectors as they were before the assembly.
-/
namespace Verif.FastDG
open GridAssembler

variable {K : Type}

/-- The accumulations of one call of the assembler, each with the cell it is addressed to. `xs` are the vectors read. -/
def contributions (lop : Lop K) (xs : List (Vec K)) (e : Event) : List (Nat × Acc K) :=
  if lop.flag e.kind then
    if e.kind ∈ [Kind.assembleVVolume, .assembleVBoundary, .assembleVVolumePostSkeleton] then
      (lop.lambda e).map fun a => (e.cell, a)
    else if e.kind ∈ [Kind.assembleUVVolume, .assembleUVBoundary, .assembleUVVolumePostSkeleton] then
      (lop.alpha e (xs.map fun x => x e.cell)).map fun a => (e.cell, a)
    else if e.kind = Kind.assembleVSkeleton then
      (lop.lambdaSkeleton e).map fun p => (if p.1 = .inside then e.cell else e.outside, p.2)
    else if e.kind = Kind.assembleUVSkeleton then
      (lop.alphaSkeleton e (xs.map fun x => x e.cell) (xs.map fun x => x e.outside)).map fun p =>
        (if p.1 = .inside then e.cell else e.outside, p.2)
    else []
  else []

/-- Sum of the values accumulated into entry `i` of the block of cell `c`. -/
def entrySum [Add K] [Zero K] (scale : Acc K → K) (l : List (Nat × Acc K)) (c i : Nat) : K :=
  ((l.filter fun p => decide (p.1 = c ∧ p.2.dof = i)).map fun p => scale p.2).sum

/-- What the assembly should leave in the result vector: `v` is its content before. -/
def assembled [Add K] [Zero K] (lop : Lop K) (scale : Acc K → K) (xs : List (Vec K)) (events : List Event) (v : Vec K) : Vec K :=
  fun c i => v c i + entrySum scale (events.flatMap (contributions lop xs)) c i

/-- No method uses `rawAccumulate`. -/
def Lop.NoRaw (lop : Lop K) : Prop :=
  (∀ e, ∀ a ∈ lop.lambda e, a.raw = false) ∧ (∀ e, ∀ p ∈ lop.lambdaSkeleton e, p.2.raw = false) ∧
  (∀ e xs, ∀ a ∈ lop.alpha e xs, a.raw = false) ∧ (∀ e xs ys, ∀ p ∈ lop.alphaSkeleton e xs ys, p.2.raw = false)

/-- The matrix accumulations of one call, each with the pair of cells (rows, columns) it is addressed to. -/
def matContributions (lop : JLop K) (x : Vec K) (e : Event) : List ((Nat × Nat) × MAcc K) :=
  if lop.flag e.kind then
    if e.kind ∈ [Kind.assembleUVVolume, .assembleUVBoundary, .assembleUVVolumePostSkeleton] then
      (lop.jacobian e (x e.cell)).map fun a => ((e.cell, e.cell), a)
    else if e.kind = Kind.assembleUVSkeleton then
      (lop.jacobianSkeleton e (x e.cell) (x e.outside)).map fun p =>
        ((if p.1 = .ss ∨ p.1 = .sn then e.cell else e.outside, if p.1 = .ss ∨ p.1 = .ns then e.cell else e.outside), p.2)
    else []
  else []

/-- Sum of the values accumulated into an entry of a block. -/
def matSum [Add K] [Zero K] (scale : MAcc K → K) (l : List ((Nat × Nat) × MAcc K)) (r i c j : Nat) : K :=
  ((l.filter fun p => decide (p.1 = (r, c) ∧ p.2.row = i ∧ p.2.col = j)).map fun p => scale p.2).sum

/-- The pattern has all blocks of the cells, and pairs of neighbours, whose trial spaces are bound during the assembly. -/
def Covers (pat : Nat → Nat → Bool) (events : List Event) : Prop :=
  ∀ e ∈ events, (e.kind = .onBindLFSUV → pat e.cell e.cell = true) ∧
    (e.kind = .onBindLFSUVOutside → pat e.cell e.outside = true ∧ pat e.outside e.cell = true ∧ pat e.outside e.outside = true)

/-- A block row is constrained entirely or not at all. -/
def WholeBlocks (n : Nat) (cons : List (Nat × Nat)) : Prop := ∀ d ∈ cons, ∀ i < n, (d.1, i) ∈ cons

/-- A local pattern that is empty or begins with the link of the first test function to the first trial function. -/
def BeginsAtZero (p : List (Nat × Nat)) : Prop := p = [] ∨ p.head? = some (0, 0)

/-- A local operator that couples, on every cell and across every face in both directions, at least two functions. -/
def PLop.Couples (lop : PLop) : Prop :=
  lop.flag .assembleUVVolume = true ∧ lop.flag .assembleUVSkeleton = true ∧
    ∀ e, lop.pattern e ≠ [] ∧ (lop.patternSkeleton e).1 ≠ [] ∧ (lop.patternSkeleton e).2 ≠ []

/-- The cells of `part` are among those of `grid`, and so are their neighbours, which see the face from the other side. -/
def PartOf (all : Bool) (part grid : List Cell) : Prop :=
  ∀ c ∈ part, c ∈ grid ∧ ∀ i ∈ c.isects, Interior all i →
    ∃ c' ∈ grid, c'.id = i.outside ∧ ∃ i' ∈ c'.isects, Interior all i' ∧ i'.outside = c.id

end Verif.FastDG
