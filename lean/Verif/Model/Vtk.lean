import Mathlib.Algebra.Ring.Defs

/-!
# Writing discrete functions to VTK files

Model of `dune/pdelab/gridfunctionspace/vtk.hh` and of `VTKGridFunctionAdapter`
in `dune/pdelab/common/vtkexport.hh`.

`addSolutionToVTKWriter` walks over a tree of function spaces, creates a grid
function for each leaf and for each `VectorGridFunctionSpace`, and registers it
with a writer of dune-grid.  The writer evaluates these functions later, each
time a file is written.  All functions of one call share one object which loads
the coefficients of a cell.

Texts are lists of characters.  The writer of dune-grid is represented by the
list of the functions registered with it and by the sequence of evaluations it
asks for.
-/

set_option linter.unusedSectionVars false

namespace Verif.Vtk

/-- A text.  `std::string`. Used for `NameGenerator`, vtk.hh:337-407. -/
abbrev Text := List Char

/-- A path to a node of the tree of spaces.  `TreePath`. Used for `pathText`, vtk.hh:360-362. -/
abbrev Path := List Nat

/-! ## The values of the functions -/

/-- What the evaluation of a function depends on: the numbers of the cells
(`_index_set.uniqueIndex`, vtk.hh:119), the entries of the vector, and for a
cell and a leaf of the tree of spaces (leaves are numbered) the entries of the
vector which belong to the leaf and the values of its shape functions.  Grid,
spaces and vector are owned by the user and change between two files.  The range
of a shape function is a vector of numbers. -/
structure World (Cell Pt K : Type) where
  index : Cell → Nat
  x : Nat → K
  dofs : Cell → Nat → List Nat
  basis : Cell → Nat → Pt → List (Nat → K)

/-- The state of `DGFTreeCommonData` (vtk.hh:131-136): the coefficients of the
cell loaded last, the finite elements to which the local function spaces are
bound and the number of that cell. -/
structure Data (Pt K : Type) where
  xLocal : Nat → List K
  fe : Nat → Pt → List (Nat → K)
  current : Nat

variable {Cell Pt K : Type} [Ring K]

/-- The constructor of `DGFTreeCommonData` (vtk.hh:105-113).  `noCell` is the
largest number of the type of the indices. -/
def Data.init (noCell : Nat) : Data Pt K where
  xLocal := fun _ => []
  fe := fun _ _ => []
  current := noCell

/-- `DGFTreeCommonData::bind` (vtk.hh:117-129).  The local function space, the
index cache and the view of the vector are represented by the lists of
coefficients they produce. -/
def Data.bind (w : World Cell Pt K) (d : Data Pt K) (cell : Cell) : Data Pt K :=
  let cellIndex := w.index cell
  if d.current = cellIndex then
    d
  else
    { xLocal := fun leaf => (w.dofs cell leaf).map w.x
      fe := w.basis cell
      current := cellIndex }

/-- A function registered with the writer: `DGFTreeLeafFunction` for a leaf,
with the dimension of the range of its shape functions, or
`DGFTreeVectorFunction` for the leaves below a vector space. Used for `Function.dimRange`, vtk.hh:147-164 and 238-253. -/
inductive Function where
  | leaf (l : Nat) (dimRange : Nat)
  | vector (ls : List Nat)
  deriving DecidableEq

/-- `Traits::dimRange` of the two classes (vtk.hh:147-164 and 238-253). -/
def Function.dimRange : Function → Nat
  | .leaf _ n => n
  | .vector ls => ls.length

/-- `y.axpy(a,b)`. Used for `evalLeaf`, vtk.hh:196-213. -/
def axpy (y : Nat → K) (a : K) (b : Nat → K) : Nat → K :=
  fun c => y c + a * b c

/-- `DGFTreeLeafFunction::evaluate` after the call of `bind` (vtk.hh:196-213). -/
def evalLeaf (d : Data Pt K) (l : Nat) (pt : Pt) : Nat → K :=
  if (d.xLocal l).length ≠ 0 then
    (List.range (d.xLocal l).length).foldl
      (fun y i => axpy y ((d.xLocal l).getD i 0) ((d.fe l pt).getD i (fun _ => 0)))
      (fun _ => 0)
  else
    fun _ => 0

/-- The inner loop of `DGFTreeVectorFunction::evaluate` for one component
(vtk.hh:309-313): shape functions are scalar. -/
def evalComponent (d : Data Pt K) (l : Nat) (pt : Pt) : K :=
  (List.range (d.xLocal l).length).foldl
    (fun y i => y + (d.xLocal l).getD i 0 * (d.fe l pt).getD i (fun _ => 0) 0) 0

/-- `DGFTreeVectorFunction::evaluate` after the call of `bind`
(vtk.hh:295-315). -/
def evalVector (d : Data Pt K) (ls : List Nat) (pt : Pt) : Nat → K :=
  fun k => match ls[k]? with
    | some l => evalComponent d l pt
    | none => 0

/-- Evaluation of a function: the cell is bound first (vtk.hh:200 and 299). -/
def evaluate (w : World Cell Pt K) (d : Data Pt K) (f : Function) (cell : Cell) (pt : Pt) :
    Data Pt K × (Nat → K) :=
  let d := d.bind w cell
  match f with
  | .leaf l _ => (d, evalLeaf d l pt)
  | .vector ls => (d, evalVector d ls pt)

/-- `rangeVector(begin, end, increment)` (common/range.hh:22-28).  `fuel` bounds
the number of iterations of the loop; without increment the loop of the code
does not end. -/
def rangeLoop : Nat → Nat → Nat → Nat → List Nat
  | 0, _, _, _ => []
  | fuel + 1, i, e, inc => if i < e then i :: rangeLoop fuel (i + inc) e inc else []

/-- `rangeVector(begin, end, increment)` (common/range.hh:22-28): at most
`end - begin` iterations if the increment is positive. -/
def rangeVector (b e inc : Nat) : List Nat :=
  rangeLoop (e - b) b e inc

/-- The default for the map of the components of a `VTKGridFunctionAdapter`
(common/vtkexport.hh:69-70): `rangeVector(dimRange)`, which is
`rangeVector(0,dimRange)` (common/range.hh:34-36). -/
def defaultRemap (f : Function) : List Nat :=
  rangeVector 0 f.dimRange 1

/-- `VTKGridFunctionAdapter::ncomps` (common/vtkexport.hh:74-77). -/
def ncomps (remap : List Nat) : Nat :=
  remap.length

/-- `VTKGridFunctionAdapter::evaluate` (common/vtkexport.hh:79-88).  `none`: the
component is outside of the map or the map leads outside of the range of the
function (undefined behaviour). -/
def adapterEvaluate (w : World Cell Pt K) (d : Data Pt K) (f : Function) (remap : List Nat)
    (comp : Nat) (cell : Cell) (pt : Pt) : Data Pt K × Option K :=
  let (d, y) := evaluate w d f cell pt
  match remap[comp]? with
  | some c => if c < f.dimRange then (d, some (y c)) else (d, none)
  | none => (d, none)

/-- What happens to a writer with registered functions: the user changes the
vector, the space or the grid, or the writer evaluates a component of a function
at a point of a cell. Source: the methods of vtk.hh:76-334. -/
inductive Event (Cell Pt K : Type) where
  | change (w : World Cell Pt K)
  | eval (f : Function) (remap : List Nat) (comp : Nat) (cell : Cell) (pt : Pt)

/-- Effect of an event and the value the writer gets. Source: the methods of vtk.hh:76-334. -/
def step (s : World Cell Pt K × Data Pt K) : Event Cell Pt K →
    (World Cell Pt K × Data Pt K) × List (Option K)
  | .change w => ((w, s.2), [])
  | .eval f remap comp cell pt =>
    let (d, y) := adapterEvaluate s.1 s.2 f remap comp cell pt
    ((s.1, d), [y])

/-- A sequence of events and the values the writer gets. Source: the methods of vtk.hh:76-334. -/
def run (s : World Cell Pt K × Data Pt K) : List (Event Cell Pt K) →
    (World Cell Pt K × Data Pt K) × List (Option K)
  | [] => (s, [])
  | e :: es =>
    let (s, out) := step s e
    let (s, rest) := run s es
    (s, out ++ rest)

/-! ## The names of the functions -/

/-- `DefaultFunctionNameGenerator` (vtk.hh:337-407): its three texts. -/
structure NameGenerator where
  prefixText : Text
  suffixText : Text
  separator : Text
  deriving DecidableEq

/-- The defaults of the constructor (vtk.hh:393-399). -/
def NameGenerator.default : NameGenerator := ⟨[], [], ['_']⟩

/-- The loop over the entries of the path (vtk.hh:360-362).  Numbers are written
in decimal form. -/
def pathText (separator : Text) (tp : Path) : Text :=
  (List.range tp.length).foldl
    (fun s i => s ++ (if i > 0 then separator else []) ++ Nat.toDigits 10 (tp.getD i 0)) []

/-- `DefaultFunctionNameGenerator::operator()` (vtk.hh:342-373).  `none` is the
`IOError`. -/
def NameGenerator.apply (g : NameGenerator) (componentName : Text) (tp : Path) : Option Text :=
  if componentName = [] then
    if g.prefixText = [] ∧ g.suffixText = [] then
      none
    else
      let s : Text := if g.prefixText ≠ [] then g.prefixText ++ g.separator else []
      let s := s ++ pathText g.separator tp
      some (if g.suffixText ≠ [] then s ++ g.separator ++ g.suffixText else s)
  else
    some (g.prefixText ++ componentName ++ g.suffixText)

/-! ## The functions which are registered -/

/-- `GridFunctionOutputParameters::Output::DataSetType`
(common/function.hh:138-142). -/
inductive Kind where
  | vertexData
  | cellData
  deriving DecidableEq

/-- A tree of function spaces: a leaf space, a `VectorGridFunctionSpace` with
its components, or another power or composite space.  A leaf and a vector space
have a name and the kind of its data.  `sameView`: the type of the grid view of
the space is the one of the writer (vtk.hh:486-534). -/
inductive Space where
  | leaf (name : Text) (kind : Kind) (sameView : Bool)
  | vector (name : Text) (kind : Kind) (sameView : Bool) (children : List Space)
  | inner (sameView : Bool) (children : List Space)

/-- An entry of the writer: vertex or cell data, the name, and the node of the
tree the function belongs to. Used for `addToWriter`, vtk.hh:437-452. -/
structure Entry where
  kind : Kind
  name : Text
  path : Path
  deriving DecidableEq

/-- `add_to_vtk_writer` (vtk.hh:437-452), `none`: an exception was thrown by the
name generator. -/
def addToWriter (gen : Text → Path → Option Text) (name : Text) (kind : Kind) (tp : Path)
    (out : List Entry) : List Entry × Bool :=
  match gen name tp with
  | none => (out, false)
  | some n =>
    match kind with
    | .vertexData => (out ++ [⟨.vertexData, n, tp⟩], true)
    | .cellData => (out ++ [⟨.cellData, n, tp⟩], true)

mutual

/-- The visitor applied to a node (vtk.hh:415-549): `leaf` for a leaf space
(523-534), `post` with `add_vector_solution` after the children for a vector
space (454-472 and 509-520); the children of a vector space are not visited
(422-432).  The second component is `false` after an exception, which ends the
traversal. -/
def visit (gen : Text → Path → Option Text) (predicate : Path → Bool) :
    Space → Path → List Entry → List Entry × Bool
  | .leaf name kind same, tp, out =>
    if same then
      if predicate tp then addToWriter gen name kind tp out else (out, true)
    else
      (out, true)
  | .vector name kind same _, tp, out =>
    if same then
      if predicate tp then addToWriter gen name kind tp out else (out, true)
    else
      (out, true)
  | .inner _ children, tp, out => visitChildren gen predicate children tp 0 out

/-- The traversal of the children of a node (`TypeTree::applyToTree` with
`DynamicTraversal`): in the order of their numbers. Used for `visit`, vtk.hh:415-549. -/
def visitChildren (gen : Text → Path → Option Text) (predicate : Path → Bool) :
    List Space → Path → Nat → List Entry → List Entry × Bool
  | [], _, _, out => (out, true)
  | s :: ss, tp, i, out =>
    match visit gen predicate s (tp ++ [i]) out with
    | (out, true) => visitChildren gen predicate ss tp (i + 1) out
    | (out, false) => (out, false)

end

/-- `addSolutionToVTKWriter` (vtk.hh:644-688) with `OutputCollector::addSolution`
(vtk.hh:571-578): what is registered with the writer, and whether the call
returned without an exception. -/
def addSolution (gen : Text → Path → Option Text) (predicate : Path → Bool) (tree : Space)
    (out : List Entry) : List Entry × Bool :=
  visit gen predicate tree [] out

/-- `VectorGridFunctionSpace::name(std::string)`
(gridfunctionspace/vectorgridfunctionspace.hh:206-215): the space and each of
its components is named.  Components are leaf spaces. -/
def setVectorName (name : Text) : Space → Space
  | .vector _ kind same children =>
    .vector name kind same (children.mapIdx fun i c => match c with
      | .leaf _ k s => .leaf (name ++ ['_'] ++ Nat.toDigits 10 i) k s
      | c => c)
  | s => s

end Verif.Vtk
