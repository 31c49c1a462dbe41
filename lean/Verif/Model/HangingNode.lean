import Verif.Model.Constraints
import Mathlib.Algebra.Field.Defs
/-
Model of the hanging node constraints.

Sources: dune/pdelab/constraints/hangingnode.hh and dune/pdelab/constraints/hangingnodemanager.hh (under /repo).

Simplifications: vertices are the natural numbers that the leaf index set assigns to them; the DOF of a vertex is named by the vertex.
A failed assertion (and the undefined behaviour that would follow without assertions) is `none`.
-/
namespace Verif.HangingNode

open Verif.Constraints

/-! ### Constraints on an intersection -/

/-- What is used of one of the two cells of an intersection: the number of its vertices (`nodeState.size()`), the numbers of the
sub-entities of a codimension of the face (`refelement.subEntity(faceindex,1,j,codim)`), the global index of a sub-entity
(`indexSet.subIndex(cell,i,codim)`) and the state of its vertices (`nodeState[i].isHanging()`). Used for `rowQ1`, hangingnode.hh:86-147. -/
structure Side where
  size : Nat
  sub : Nat → List Nat
  index : Nat → Nat → Nat
  hanging : Nat → Bool

/-- The table of neighbours on a quadrilateral, hangingnode.hh:94. -/
def fi : List Nat := [0, 1, 2, 3, 1, 0, 3, 2, 2, 0, 3, 1, 3, 1, 2, 0]

section
variable {K : Type} [Field K]

/-- The body of the loop of `CubeGridQ1Assembler::assembleConstraints` for `dimension == 3`, hangingnode.hh:86-147: at most one row. -/
def rowQ1 (s : Side) (m : List Nat) (dimension j : Nat) : List (Nat × List (Nat × K)) :=
  let state k := s.hanging (m.getD k 0)
  let global k := s.index dimension (m.getD k 0)
  let i := 4 * j
  if state j then
    if state (fi.getD (i + 1) 0) && state (fi.getD (i + 2) 0) then [(global j, [(global (fi.getD (i + 3) 0), 1 / 4)])]
    else if !state (fi.getD (i + 1) 0) then [(global j, [(global (fi.getD (i + 1) 0), 1 / 2)])]
    else if !state (fi.getD (i + 2) 0) then [(global j, [(global (fi.getD (i + 2) 0), 1 / 2)])]
    else []
  else []

/-- The body of the loop for `dimension == 2`, hangingnode.hh:147-170 and 273-293. -/
def rowEdge (s : Side) (m : List Nat) (dimension j : Nat) : List (Nat × List (Nat × K)) :=
  let state k := s.hanging (m.getD k 0)
  let global k := s.index dimension (m.getD k 0)
  if state j then [(global j, [(global (1 - j), 1 / 2)])] else []

/-- The assertion `!nodeState[m[n_j]].isHanging()` in the loop for `dimension == 2`, hangingnode.hh:157 and 279; more than two
sub-entities lead to an access at the index `1-j` of an unsigned type (hangingnode.hh:155 and 278). -/
def edgeOk (s : Side) (m : List Nat) : Bool :=
  m.length ≤ 2 && !(s.hanging (m.getD 0 0) && s.hanging (m.getD 1 0))

/-- `CubeGridQ1Assembler::assembleConstraints`, hangingnode.hh:62-174, on the side with hanging nodes. `dimension` is the constant of line
42. -/
def assembleQ1 (dimension : Nat) (s : Side) : Option (List (Nat × List (Nat × K))) :=
  let m := s.sub dimension
  if m.isEmpty then some []
  else if dimension = 3 then
    if s.size = 8 then some ((List.range m.length).flatMap (rowQ1 s m dimension)) else none
  else if dimension = 2 then
    if s.size = 4 && edgeOk s m then some ((List.range m.length).flatMap (rowEdge s m dimension)) else none
  else some []

/-- The body of the loop of `SimplexGridP1Assembler::assembleConstraints` for `dimension == 3`, hangingnode.hh:248-273: all
non-hanging vertices of the face in one row. -/
def rowP1 (s : Side) (m : List Nat) (dimension j : Nat) : List (Nat × List (Nat × K)) :=
  let state k := s.hanging (m.getD k 0)
  let global k := s.index dimension (m.getD k 0)
  if state j then
    let contribution := ([1, 2].filter fun k => !state ((j + k) % 3)).foldl
      (fun row k => assign (global ((j + k) % 3)) (1 / 2) row) []
    if contribution.isEmpty then [] else [(global j, contribution)]
  else []

/-- `SimplexGridP1Assembler::assembleConstraints`, hangingnode.hh:224-298. -/
def assembleP1 (dimension : Nat) (s : Side) : Option (List (Nat × List (Nat × K))) :=
  let m := s.sub dimension
  if m.isEmpty then some []
  else if dimension = 3 then
    if s.size = 4 then some ((List.range m.length).flatMap (rowP1 s m dimension)) else none
  else if dimension = 2 then
    if s.size = 3 && edgeOk s m then some ((List.range m.length).flatMap (rowEdge s m dimension)) else none
  else some []

/-- `e_has_hangingnodes`, `f_has_hangingnodes`, hangingnode.hh:370-391, with the dimension of the grid. -/
def Side.hasHanging (s : Side) (gridDim : Nat) : Bool := (s.sub gridDim).any s.hanging

/-- `HangingNodesDirichletConstraints::skeleton`, hangingnode.hh:343-402, with the beginning of `assembleConstraints`
(hangingnode.hh:47-60): the rows, of the side which has hanging nodes. -/
def skeletonWith (assemble : Nat → Side → Option (List (Nat × List (Nat × K)))) (gridDim dimension : Nat) (e f : Side) :
    Option (List (Nat × List (Nat × K))) :=
  if !e.hasHanging gridDim && !f.hasHanging gridDim then some []
  else if e.hasHanging gridDim && f.hasHanging gridDim then some []
  else if e.hasHanging gridDim then assemble dimension e
  else assemble dimension f

/-- The constraints of the code on a grid of dimension `gridDim`: the constant of hangingnode.hh:42 and 204 is
`Intersection::mydimension`, the dimension of the face (geometrywrapper.hh:71-72). -/
def skeleton (assemble : Nat → Side → Option (List (Nat × List (Nat × K)))) (gridDim : Nat) (e f : Side) :
    Option (List (Nat × List (Nat × K))) := skeletonWith assemble gridDim (gridDim - 1) e f

/-- The constraints of all intersections, collected by `import_local_transformation` (constraints.hh:635-676). -/
def collect (rows : List (List (Nat × List (Nat × K)))) : Trafo Nat K :=
  assembleNoParameters (rows.map fun r => { index := id, rows := r }) Trafo.empty

end

/-! ### The manager -/

/-- What the manager distinguishes of an intersection of a cell: on the boundary (with `isDirichlet` at the corners), conforming, or not
conforming with a neighbour of a level. Used for `visitFace`, hangingnodemanager.hh:148-209. -/
inductive FaceKind where
  | boundary (dirichlet : List Bool)
  | conforming
  | nonconforming (outsideLevel : Nat)
  deriving DecidableEq, Repr

/-- An intersection: the corners of the face of the (inside) cell, and its kind. Used for `visitFace`, hangingnodemanager.hh:148-209. -/
structure Face where
  vertices : List Nat
  kind : FaceKind
  deriving DecidableEq, Repr

/-- A leaf cell. Used for `visitCell`, hangingnodemanager.hh:110-211. -/
structure Cell where
  level : Nat
  vertices : List Nat
  faces : List Face
  deriving DecidableEq, Repr

/-- `NodeInfo`, hangingnodemanager.hh:28-58. -/
structure NodeInfo where
  minimumLevel : Nat
  maximumLevel : Nat
  minimumTouchingLevel : Nat
  isBoundary : Bool
  deriving DecidableEq, Repr

/-- The maximum of `unsigned short`. Used for `NodeInfo.init`, hangingnodemanager.hh:53-57. -/
def maxShort : Nat := 65535

/-- `NodeInfo()`, hangingnodemanager.hh:53-57. -/
def NodeInfo.init : NodeInfo := ⟨maxShort, 0, maxShort, false⟩

/-- `addLevel`, hangingnodemanager.hh:42-46. -/
def NodeInfo.addLevel (n : NodeInfo) (level : Nat) : NodeInfo :=
  { n with minimumLevel := min n.minimumLevel level, maximumLevel := max n.maximumLevel level }

/-- `addTouchingLevel`, hangingnodemanager.hh:48-51. -/
def NodeInfo.addTouchingLevel (n : NodeInfo) (level : Nat) : NodeInfo :=
  { n with minimumTouchingLevel := min n.minimumTouchingLevel level }

/-- `node_info`, as a function of the vertex. Used for `visitFace`, hangingnodemanager.hh:148-209. -/
abbrev Info := Nat → NodeInfo

/-- Changing the entry of one vertex, hangingnodemanager.hh:148-209. -/
def Info.modify (info : Info) (v : Nat) (f : NodeInfo → NodeInfo) : Info := fun w => if w = v then f (info w) else info w

/-- One intersection, hangingnodemanager.hh:148-209. -/
def visitFace (level : Nat) (info : Info) (f : Face) : Info :=
  match f.kind with
  | .boundary dirichlet =>
    (f.vertices.zip dirichlet).foldl
      (fun info p => info.modify p.1 fun n => { n with isBoundary := p.2 }.addTouchingLevel level) info
  | .conforming => info
  | .nonconforming fLevel =>
    if level < fLevel then info
    else f.vertices.foldl (fun info v => info.modify v fun n => n.addTouchingLevel fLevel) info

/-- One cell, hangingnodemanager.hh:110-211. -/
def visitCell (info : Info) (c : Cell) : Info :=
  c.faces.foldl (visitFace c.level) (c.vertices.foldl (fun info v => info.modify v fun n => n.addLevel c.level) info)

/-- `analyzeView`, hangingnodemanager.hh:100-212. -/
def analyzeView (cells : List Cell) : Info := cells.foldl visitCell fun _ => .init

/-- `hangingNodes(e)[i].isHanging()`, hangingnodemanager.hh:236-259, for a vertex. -/
def Info.isHanging (info : Info) (v : Nat) : Bool := (info v).minimumTouchingLevel < (info v).minimumLevel

/-- The test of a cell in `adaptToIsolatedHangingNodes`, hangingnodemanager.hh:300-327. -/
def needsRefinement (info : Info) (c : Cell) : Bool := c.vertices.any fun v => (info v).maximumLevel - c.level > 1

/-- The loop over the cells, hangingnodemanager.hh:283-481: the marked cells. The additional test for simplices (330-479, a parameter
here) is made only if no cell has been marked before. -/
def markCells (info : Info) (extra : Cell → Bool) : List Cell → List Cell → List Cell
  | [], marked => marked
  | c :: cs, marked =>
    let marked := if needsRefinement info c then marked ++ [c] else marked
    markCells info extra cs (if marked.isEmpty && extra c then marked ++ [c] else marked)

/-- `adaptToIsolatedHangingNodes`, hangingnodemanager.hh:264-498, with a bound on the number of iterations of the (unbounded) loop:
`none` if it is exceeded. `cells` are the leaf cells of a grid, `refine` refines the marked cells. -/
def adaptToIsolated {G : Type} (cells : G → List Cell) (refine : G → List Cell → G) (extra : G → Info → Cell → Bool) :
    Nat → Info → G → Option (G × Info)
  | 0, _, _ => none
  | n + 1, info, g =>
    let marked := markCells info (extra g info) (cells g) []
    if marked.isEmpty then some (g, info)
    else
      let g := refine g marked
      adaptToIsolated cells refine extra n (analyzeView (cells g)) g

end Verif.HangingNode
