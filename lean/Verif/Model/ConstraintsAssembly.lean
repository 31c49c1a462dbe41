import Verif.Model.Constraints
import Verif.Model.GridAssembler
/-
Model of the assembly of constraints on a grid: the loop over the grid of dune/pdelab/constraints/common/constraints.hh,
the pairing of the tree of parameters with the tree of spaces, and the constraints classes conforming.hh, p0.hh, p0ghost.hh,
raviartthomas0.hh, interiornode.hh and noconstraints.hh.

Elements carry what the code asks of their reference element and of the index set. Coefficients of non-Dirichlet constraints
have the type `F`. A position on a face at which parameters are evaluated is always the centre of the face.
-/
namespace Verif.ConsAsm

open GridAssembler Constraints

/-- Partition types of elements. Used for `constrainFace`, conforming.hh:75-92 and 124-137. -/
inductive Partition where
  | interior | border | overlap | front | ghost
deriving DecidableEq, Repr

/-- An intersection as the assembler sees it, with `indexInInside()`. Used for `callBoundary`, constraints.hh:65-74, 124-192. -/
structure CIsect extends Isect where
  indexInInside : Nat
deriving DecidableEq, Repr

/-- An element with its intersections. `sub codim s` is the entity (global index of the geometry type, index in the index set)
that is the subentity `s`; `numSub codim` the number of subentities; `faceSub f codim` the list of
`refelem.subEntity(f,1,j,codim)` for all `j`. Used for `constrainFace`, conforming.hh:75-92 and 124-137. -/
structure Elem where
  id : Nat
  partition : Partition
  numSub : (codim : Nat) → Nat
  sub : (codim s : Nat) → Nat × Nat
  faceSub : (face codim : Nat) → List Nat
  isects : List CIsect

/-- `LocalKey` of dune-localfunctions. Used for `constrainFace`, conforming.hh:75-92 and 124-137. -/
structure LocalKey where
  subEntity : Nat
  codim : Nat
  index : Nat
deriving DecidableEq, Repr

/-- A leaf of the constraints parameter tree, evaluated at the centre of a face. Used for `dirichletParameters`, constraintsparameters.hh:24-71. -/
structure Param where
  isDirichlet : Elem → CIsect → Bool
  isNeumann : Elem → CIsect → Bool

/-- constraintsparameters.hh:24-71  `DirichletConstraintsParameters`. -/
def dirichletParameters : Param := ⟨fun _ _ => true, fun _ _ => false⟩

/-- constraintsparameters.hh:79-110  `NoDirichletConstraintsParameters`. -/
def noDirichletParameters : Param := ⟨fun _ _ => false, fun _ _ => true⟩

/-- constraintsparameters.hh:191-230  `FluxFromDirichletConstraintsAdapter`. -/
def fluxFromDirichlet (p : Param) : Param := ⟨p.isDirichlet, fun e i => !p.isDirichlet e i⟩

/-- constraintsparameters.hh:243-282  `DirichletFromFluxConstraintsAdapter`. -/
def dirichletFromFlux (p : Param) : Param := ⟨fun e i => !p.isNeumann e i, p.isNeumann⟩

/-- A leaf local function space bound to an element: the local keys of its finite element and `dofIndex(i)`.
Used for `constrainFace`, conforming.hh:75-92 and 124-137. -/
structure Bound (D : Type) where
  keys : List LocalKey
  dof : Nat → D

/-- constraintstransformation.hh:29-48  `LocalTransformation`. -/
abbrev CL (D F : Type) := List (D × List (D × F))

/-- A constraints class. The flags are those the assembler looks at. Used for `noConstraints`, noconstraints.hh:18-48. -/
structure Cons (D F : Type) where
  doBoundary : Bool
  doProcessor : Bool
  doSkeleton : Bool
  doVolume : Bool
  boundary : Param → Elem → CIsect → Bound D → CL D F → CL D F
  processor : Elem → CIsect → Bound D → CL D F → CL D F
  skeleton : Elem → CIsect → Elem → Bound D → Bound D → CL D F → CL D F → CL D F × CL D F
  volume : Param → Elem → Bound D → CL D F → CL D F

section Classes
variable {D F : Type} [DecidableEq D]

/-- noconstraints.hh:18-48  `NoConstraints`. -/
def noConstraints : Cons D F where
  doBoundary := false
  doProcessor := false
  doSkeleton := false
  doVolume := false
  boundary _ _ _ _ cl := cl
  processor _ _ _ cl := cl
  skeleton _ _ _ _ _ cl cl' := (cl, cl')
  volume _ _ _ cl := cl

/-- conforming.hh:75-92 and 124-137  the loop over all degrees of freedom: those attached to a subentity of the face get an
empty row. -/
def constrainFace (e : Elem) (face : Nat) (lfs : Bound D) (cl : CL D F) : CL D F :=
  (List.range lfs.keys.length).foldl (fun cl i =>
    match lfs.keys[i]? with
    | none => cl
    | some key =>
      if key.codim = 0 then cl
      else (e.faceSub face key.codim).foldl (fun cl s => if key.subEntity = s then assign (lfs.dof i) [] cl else cl) cl) cl

/-- conforming.hh:36-94  `ConformingDirichletConstraints`. -/
def conformingDirichlet : Cons D F :=
  { noConstraints with
    doBoundary := true
    boundary := fun p e i lfs cl => if !p.isDirichlet e i then cl else constrainFace e i.indexInInside lfs cl }

/-- conforming.hh:97-139  `OverlappingConformingDirichletConstraints`. -/
def overlappingConformingDirichlet : Cons D F :=
  { conformingDirichlet with
    doProcessor := true
    processor := fun e i lfs cl => constrainFace e i.indexInInside lfs cl }

/-- conforming.hh:143-191, 239-243  `NonoverlappingConformingDirichletConstraints`; `offsets`, `ghosts` are the members
`_gt_offsets` and `_ghosts`. -/
def nonoverlappingConformingDirichlet (offsets : List Nat) (ghosts : List Bool) : Cons D F :=
  { conformingDirichlet with
    doVolume := true
    volume := fun _ e lfs cl =>
      if e.partition = .interior then cl
      else (List.range lfs.keys.length).foldl (fun cl i =>
        match lfs.keys[i]? with
        | none => cl
        | some key =>
          let ent := e.sub key.codim key.subEntity
          if ghosts.getD (offsets.getD ent.1 0 + ent.2) false then assign (lfs.dof i) [] cl else cl) cl }

/-- p0.hh:16-41  `P0ParallelConstraints`. -/
def p0Parallel : Cons D F :=
  { noConstraints with
    doProcessor := true
    processor := fun _ _ lfs cl => (List.range lfs.keys.length).foldl (fun cl i => assign (lfs.dof i) [] cl) cl }

/-- p0ghost.hh:18-51  `P0ParallelGhostConstraints`. -/
def p0ParallelGhost : Cons D F :=
  { noConstraints with
    doVolume := true
    volume := fun _ e lfs cl =>
      if e.partition = .interior then cl
      else if e.partition = .ghost then (List.range lfs.keys.length).foldl (fun cl i => assign (lfs.dof i) [] cl) cl
      else cl }

/-- raviartthomas0.hh:18-46  `RT0Constraints`. -/
def rt0 : Cons D F :=
  { noConstraints with
    doBoundary := true
    boundary := fun p e i lfs cl => if p.isNeumann e i then assign (lfs.dof i.indexInInside) [] cl else cl }

/-- interiornode.hh:23-68  `InteriorNodeConstraints`; `interior` is the member of that name. (The assertions are hypotheses of the
theorems.) -/
def interiorNode (interior : List Bool) : Cons D F :=
  { noConstraints with
    doVolume := true
    volume := fun _ e lfs cl => (List.range lfs.keys.length).foldl (fun cl i =>
      match lfs.keys[i]? with
      | none => cl
      | some key => if interior.getD (e.sub key.codim key.subEntity).2 false then assign (lfs.dof i) [] cl else cl) cl }

end Classes

/-- interiornode.hh:75-110  `updateInteriorNodes`: `n` is the number of vertices, `dim` the dimension. -/
def updateInteriorNodes (dim n : Nat) (elements : List Elem) : List Bool :=
  elements.foldl (fun v e =>
    e.isects.foldl (fun v i =>
      if i.boundary then (e.faceSub i.indexInInside dim).foldl (fun v s => v.set (e.sub dim s).2 false) v else v) v)
    (List.replicate n true)

/-- Partial sums, `std::partial_sum` in place. Used for `ghostOffsets`, conforming.hh:196-207. -/
def partialSum : Nat → List Nat → List Nat
  | _, [] => []
  | s, a :: l => (s + a) :: partialSum (s + a) l

/-- conforming.hh:196-207  the offsets: `codimOf` gives the codimension of each of the geometry types, `contains` tells whether
the ordering has degrees of freedom there, `size` the number of entities of the index set. -/
def ghostOffsets (codimOf : List Nat) (contains : Nat → Bool) (size : Nat → Nat) : List Nat :=
  partialSum 0 (0 :: (List.range codimOf.length).map fun gt => if contains (codimOf.getD gt 0) then size gt else 0)

/-- conforming.hh:193-237  `compute_ghosts`. -/
def computeGhosts (dim : Nat) (contains : Nat → Bool) (offsets : List Nat) (elements : List Elem) : List Bool :=
  (elements.filter fun e => e.partition = .interior).foldl (fun v e =>
    (List.range (dim + 1)).foldl (fun v codim =>
      if contains codim then
        (List.range (e.numSub codim)).foldl (fun v s =>
          v.set (offsets.getD (e.sub codim s).1 0 + (e.sub codim s).2) false) v
      else v) v) (List.replicate (offsets.getLastD 0) true)

/-! ### Trees -/

/-- A leaf of the tree of spaces: its number, the local keys on each element, the DOF indices and the constraints class.
Used for `callBoundary`, constraints.hh:65-74, 124-192. -/
structure Leaf (D F : Type) where
  no : Nat
  keys : Elem → List LocalKey
  dof : Elem → Nat → D
  cons : Cons D F

/-- A tree of the library dune-typetree. Used for `pairs`, constraints.hh:109-122, 155-191, 288-325. -/
inductive Tree (α : Type) where
  | leaf (a : α)
  | node (children : List (Tree α))

mutual
/-- `TypeTree::applyToTree`: the leaves in the order in which they are visited. Used for `pairs`, constraints.hh:109-122, 155-191, 288-325. -/
def Tree.leaves {α : Type} : Tree α → List α
  | .leaf a => [a]
  | .node ts => Tree.leavesList ts
/-- The leaves of all children. Used for `pairs`, constraints.hh:109-122, 155-191, 288-325. -/
def Tree.leavesList {α : Type} : List (Tree α) → List α
  | [] => []
  | t :: ts => t.leaves ++ Tree.leavesList ts
end

mutual
/-- `TypeTree::applyToTreePair` with constraints.hh:109-122, 155-191, 288-325: the parameters that each leaf space is combined
with. `none`: the program is rejected by the compiler. -/
def pairs {P L : Type} : Tree P → Tree L → Option (List (P × L))
  | .leaf p, t => some (t.leaves.map fun l => (p, l))
  | .node _, .leaf _ => none
  | .node ps, .node ts => pairsList ps ts
/-- All children. Used for `pairs`, constraints.hh:109-122, 155-191, 288-325. -/
def pairsList {P L : Type} : List (Tree P) → List (Tree L) → Option (List (P × L))
  | [], [] => some []
  | p :: ps, t :: ts => do
    let a ← pairs p t
    let b ← pairsList ps ts
    return a ++ b
  | _, _ => none
end

/-- A leaf of a tree of grid functions: the number of components and their values at the centre of a face.
Used for `oldStyle`, constraints.hh:468-503. -/
structure GridFunction where
  dimRange : Nat
  value : Elem → CIsect → Nat → Int

/-- constraints.hh:468-503  `OldStyleConstraintsWrapper`. -/
def oldStyle (f : GridFunction) (i : Nat) : Param := ⟨fun e s => f.value e s i > 0, fun e s => f.value e s i = 0⟩

mutual
/-- constraints.hh:502-557  the transformation of a tree of grid functions to a tree of parameters. -/
def gfToConstraints : Tree GridFunction → Tree Param
  | .leaf f => if f.dimRange = 1 then .leaf (oldStyle f 0) else .node ((List.range f.dimRange).map fun i => .leaf (oldStyle f i))
  | .node ts => .node (gfToConstraintsList ts)
/-- All children. Used for `gfToConstraints`, constraints.hh:502-557. -/
def gfToConstraintsList : List (Tree GridFunction) → List (Tree Param)
  | [] => []
  | t :: ts => gfToConstraints t :: gfToConstraintsList ts
end

/-! ### The loop over the grid -/
section Assembly
variable {D F I : Type} [DecidableEq D]

/-- A leaf space bound to an element. Used for `callBoundary`, constraints.hh:65-74, 124-192. -/
def Leaf.bind (l : Leaf D F) (e : Elem) : Bound D := ⟨l.keys e, l.dof e⟩

/-- constraints.hh:65-74, 124-192  `ConstraintsCallBoundary` for all pairs of parameters and spaces. -/
def callBoundary (ps : List (Param × Leaf D F)) (e : Elem) (i : CIsect) (cl : CL D F) : CL D F :=
  ps.foldl (fun cl pl =>
    if pl.2.cons.doBoundary then
      if (pl.2.keys e).length = 0 then cl else pl.2.cons.boundary pl.1 e i (pl.2.bind e) cl
    else cl) cl

/-- constraints.hh:75-84, 194-219  `ConstraintsCallProcessor` for all spaces. -/
def callProcessor (ls : List (Leaf D F)) (e : Elem) (i : CIsect) (cl : CL D F) : CL D F :=
  ls.foldl (fun cl l =>
    if l.cons.doProcessor then if (l.keys e).length = 0 then cl else l.cons.processor e i (l.bind e) cl else cl) cl

/-- constraints.hh:97-106, 255-326  `ConstraintsCallVolume` for all pairs of parameters and spaces. -/
def callVolume (ps : List (Param × Leaf D F)) (e : Elem) (cl : CL D F) : CL D F :=
  ps.foldl (fun cl pl =>
    if pl.2.cons.doVolume then
      if (pl.2.keys e).length = 0 then cl else pl.2.cons.volume pl.1 e (pl.2.bind e) cl
    else cl) cl

/-- constraints.hh:85-96, 222-254  `ConstraintsCallSkeleton` for all spaces. -/
def callSkeleton (ls : List (Leaf D F)) (e : Elem) (i : CIsect) (f : Elem) (cl cl' : CL D F) : CL D F × CL D F :=
  ls.foldl (fun s l =>
    if l.cons.doSkeleton then
      if (l.keys e).length = 0 ∧ (l.keys f).length = 0 then s
      else l.cons.skeleton e i f (l.bind e) (l.bind f) s.1 s.2
    else s) (cl, cl')

/-- constraints.hh:626-670  one intersection: the local constraints of the element and the contributions of neighbours
imported so far. -/
def visitIsect (allPartitions : Bool) (element : Nat → Elem) (index : D → I) (ps : List (Param × Leaf D F))
    (ls : List (Leaf D F)) (e : Elem) (s : CL D F × List (Contribution D I F)) (i : CIsect) :
    CL D F × List (Contribution D I F) :=
  match classify allPartitions i.toIsect with
  | .skeleton | .periodic =>
    if e.id > i.outside then
      let r := callSkeleton ls e i (element i.outside) s.1 []
      (r.1, if r.2.isEmpty then s.2 else s.2 ++ [⟨index, r.2⟩])
    else s
  | .boundary => (callBoundary ps e i s.1, s.2)
  | .processor => (callProcessor ls e i s.1, s.2)

/-- constraints.hh:609-678  one element: what is imported. -/
def visitElement (allPartitions : Bool) (element : Nat → Elem) (index : D → I) (ps : List (Param × Leaf D F))
    (ls : List (Leaf D F)) (e : Elem) : List (Contribution D I F) :=
  let r := e.isects.foldl (visitIsect allPartitions element index ps ls e) (callVolume ps e [], [])
  r.2 ++ if r.1.isEmpty then [] else [⟨index, r.1⟩]

/-- constraints.hh:588-694, 774-781  `constraints(p,gfs,cg)`. `index` maps DOF indices to container indices. `none`: the program
is rejected by the compiler. -/
def constraints [DecidableEq I] (allPartitions : Bool) (elements : List Elem) (element : Nat → Elem) (index : D → I)
    (p : Tree Param) (space : Tree (Leaf D F)) (cg : Trafo I F) : Option (Trafo I F) :=
  (pairs p space).map fun ps =>
    assemble (elements.flatMap (visitElement allPartitions element index ps space.leaves)) cg

end Assembly

end Verif.ConsAsm
