import Verif.Model.OrthonormalBasis
/-
Model of the finite element maps: dune/pdelab/finiteelementmap/*.hh, and of dune/pdelab/common/topologyutility.hh.

A finite element is named by the arguments of its constructor. Template parameters are arguments. The grid is a list of cells with
their indices.
-/
namespace Verif.FEM
open FE (setAt)

/-! ## Geometry types -/

/-- `Dune::GeometryType` (dune-geometry): topology id, dimension and the flag for types without a topology.
Used for `GeometryType.isPyramid`, topologyutility.hh:48-84. -/
structure GeometryType where
  id : Nat
  dim : Nat
  none : Bool := false

/-- `GeometryType::operator==` (dune-geometry). Used for `pk1`, pkfem.hh:28-71. -/
def GeometryType.eq (a b : GeometryType) : Bool :=
  a.none == b.none && (a.none || (a.dim == b.dim && a.id / 2 == b.id / 2))

/-- `Dune::GeometryTypes::vertex`, `line`, `triangle`, `quadrilateral`, `tetrahedron`, `cube(d)`, `simplex(d)` (dune-geometry).
Used for `pk1`, pkfem.hh:28-71. -/
def gtSimplex (d : Nat) : GeometryType := { id := 0, dim := d }
/-- `Dune::GeometryTypes::cube(d)` (dune-geometry), used for `qkdg`, qkdg.hh:36-180. -/
def gtCube (d : Nat) : GeometryType := { id := if d > 1 then 2 ^ d - 1 else 0, dim := d }

/-- `GeometryType::isSimplex()`, `isCube()` (dune-geometry). Used for `pkqkGet`, pkqkfem.hh:101-112. -/
def GeometryType.isSimplex (g : GeometryType) : Bool := !g.none && (g.id ||| 1) == 1
/-- `GeometryType::isCube()` (dune-geometry), used for `pkqkGet`, pkqkfem.hh:101-112. -/
def GeometryType.isCube (g : GeometryType) : Bool := !g.none && (g.id ^^^ (2 ^ g.dim - 1)) / 2 == 0
/-- `GeometryType::isPyramid()`, `isPrism()` (dune-geometry). Source: the types made in topologyutility.hh:48-84. -/
def GeometryType.isPyramid (g : GeometryType) : Bool := !g.none && g.dim == 3 && (g.id ||| 1) == 3
/-- `GeometryType::isPrism()` (dune-geometry), the types made in topologyutility.hh:48-84. -/
def GeometryType.isPrism (g : GeometryType) : Bool := !g.none && g.dim == 3 && (g.id ||| 1) == 5

/-- `GeometryType::BasicType` (dune-geometry). Used for `basicTypeFromTopology`, topologyutility.hh:24-40. -/
inductive BasicType
  | simplex
  | cube
  | pyramid
  | prism
  | extended
  | none
deriving DecidableEq

/-- topologyutility.hh:24-40  `BasicTypeFromDimensionAndTopologyId<dimension,topologyId>::value`. -/
def basicTypeFromTopology (dim id : Nat) : BasicType :=
  if (id ||| 1) == 1 then .simplex
  else if (id ^^^ (2 ^ dim - 1)) / 2 == 0 then .cube
  else .none

/-- topologyutility.hh:48-84  `geometryTypeFromBasicType(basicType,dim)`. `none`: the exception. -/
def geometryTypeFromBasicType (b : BasicType) (dim : Nat) : Option GeometryType :=
  if dim > 1 then
    match b with
    | .simplex => some { id := 0, dim }
    | .cube => some { id := 2 ^ dim - 1, dim }
    | .pyramid => if dim == 3 then some { id := 3, dim } else Option.none
    | .prism => if dim == 3 then some { id := 5, dim } else Option.none
    | .none => some { id := 0, dim }
    | .extended => Option.none
  else some { id := 0, dim }

/-! ## Numbers of degrees of freedom -/

/-- finiteelementmap.hh:41-94  the part of the interface that tells numbers of degrees of freedom. -/
structure Sizes where
  fixedSize : Bool
  hasDOFs : Nat → Bool
  size : GeometryType → Nat
  maxLocalSize : Nat

/-- pkfem.hh:28-71  `PkLocalFiniteElementMapBase<GV,D,R,k,1>`. -/
def pk1 (k : Nat) : Sizes where
  fixedSize := true
  hasDOFs codim := if codim = 1 then decide (k > 0) else if codim = 0 then decide (k ≠ 1) else false
  size gt := if gt.eq (gtSimplex 0) then (if k > 0 then 1 else 0)
    else if gt.eq (gtSimplex 1) then (if k > 0 then k - 1 else 1)
    else 0
  maxLocalSize := k + 1

/-- pkfem.hh:78-165  `PkLocalFiniteElementMapBase<GV,D,R,k,2>`: the sizes. -/
def pk2 (k : Nat) : Sizes where
  fixedSize := true
  hasDOFs codim :=
    if codim = 2 then decide (k > 0) else if codim = 1 then decide (k > 1)
    else if codim = 0 then decide (k > 2 ∨ k = 0) else false
  size gt := if gt.eq (gtSimplex 0) then (if k > 0 then 1 else 0)
    else if gt.eq (gtSimplex 1) then (if k > 1 then k - 1 else 0)
    else if gt.eq (gtSimplex 2) then (if k > 2 then (k - 2) * (k - 1) / 2 else if k = 0 then 1 else 0)
    else 0
  maxLocalSize := (k + 1) * (k + 2) / 2

/-- pkfem.hh:172-282  `PkLocalFiniteElementMapBase<GV,D,R,k,3>`: the sizes. In the size of the tetrahedron the differences of
unsigned numbers wrap around for k = 1 and k = 2, where another factor is 0, as here. -/
def pk3 (k : Nat) : Sizes where
  fixedSize := true
  hasDOFs codim :=
    if codim = 3 then decide (k > 0) else if codim = 2 then decide (k > 1) else if codim = 1 then decide (k > 2)
    else if codim = 0 then decide (k = 0 ∨ k > 3) else false
  size gt := if gt.eq (gtSimplex 0) then (if k > 0 then 1 else 0)
    else if gt.eq (gtSimplex 1) then (if k > 1 then k - 1 else 0)
    else if gt.eq (gtSimplex 2) then (if k > 2 then (k - 2) * (k - 1) / 2 else 0)
    else if gt.eq (gtSimplex 3) then (if k = 0 then 1 else (k - 3) * (k - 2) * (k - 1) / 6)
    else 0
  maxLocalSize := (k + 1) * (k + 2) * (k + 3) / 6

/-- pk1d.hh:25-69  `Pk1dLocalFiniteElementMap`. -/
def pk1dRuntime (k : Nat) : Sizes where
  fixedSize := true
  hasDOFs codim := if codim = 0 then decide (k ≠ 1) else if codim = 1 then decide (k > 0) else false
  size gt := if gt.dim = 0 then (if k > 0 then 1 else 0)
    else if gt.dim = 1 then (if k > 0 then k - 1 else 1)
    else 0
  maxLocalSize := k + 1

/-- qkfem.hh:17-77  `QkLocalFiniteElementMap<GV,D,R,k>`, for k = 1 and k = 2. -/
def qk (k d : Nat) : Sizes where
  fixedSize := true
  hasDOFs codim := if k = 1 then decide (codim = d) else if k = 2 then true else false
  size gt := if k = 1 then (if gt.eq (gtSimplex 0) then 1 else 0) else if k = 2 then 1 else 0
  maxLocalSize := (List.range d).foldl (fun r _ => r * (k + 1)) 1

/-- p0fem.hh:15-50  `P0LocalFiniteElementMap` for the geometry type `g`. -/
def p0 (g : GeometryType) : Sizes where
  fixedSize := true
  hasDOFs codim := decide (codim = 0)
  size gt := if gt.eq g then 1 else 0
  maxLocalSize := 1

/-- monomfem.hh:21-55  `MonomLocalFiniteElementMap`, `n` is the size of the local basis. -/
def monom (g : GeometryType) (n : Nat) : Sizes where
  fixedSize := true
  hasDOFs codim := decide (codim = 0)
  size gt := if gt.eq g then n else 0
  maxLocalSize := n

/-- opbfem.hh:18-49  `OPBLocalFiniteElementMap`, for simplices and cubes. -/
def opb (b : BasicType) (type : OPB.BasisType) (k d : Nat) : Sizes where
  fixedSize := true
  hasDOFs codim := decide (codim = 0)
  size gt :=
    match geometryTypeFromBasicType b d with
    | some g => if gt.eq g then OPB.basisSize type d k else 0
    | Option.none => 0
  maxLocalSize := OPB.basisSize type d k

/-- qkdg.hh:36-180  `QkDGLocalFiniteElementMap` for Lagrange, Legendre and Gauss-Lobatto polynomials. -/
def qkdg (k d : Nat) : Sizes where
  fixedSize := true
  hasDOFs codim := decide (codim = 0)
  size gt := if gt.eq (gtCube d) then FE.qkSize k d else 0
  maxLocalSize := FE.qkSize k d

/-- rannacherturekfem.hh:13-39  `RannacherTurekLocalFiniteElementMap`. -/
def rannacherTurek : Sizes where
  fixedSize := true
  hasDOFs codim := decide (codim = 1)
  size gt := if gt.eq (gtSimplex 1) then 1 else 0
  maxLocalSize := 4

/-- rt0simplex2dfem.hh:37-55. -/
def rt0Simplex2 : Sizes where
  fixedSize := true
  hasDOFs codim := decide (codim = 1)
  size gt := if gt.eq (gtSimplex 1) then 1 else 0
  maxLocalSize := 3

/-- rt0cube2dfem.hh:37-55. -/
def rt0Cube2 : Sizes where
  fixedSize := true
  hasDOFs codim := decide (codim = 1)
  size gt := if gt.eq (gtSimplex 1) then 1 else 0
  maxLocalSize := 4

/-- rt0simplex3dfem.hh:37-55. -/
def rt0Simplex3 : Sizes where
  fixedSize := true
  hasDOFs codim := decide (codim = 1)
  size gt := if gt.eq (gtSimplex 2) then 1 else 0
  maxLocalSize := 4

/-- rt0cube3dfem.hh:37-55. -/
def rt0Cube3 : Sizes where
  fixedSize := true
  hasDOFs codim := decide (codim = 1)
  size gt := if gt.eq (gtCube 2) then 1 else 0
  maxLocalSize := 6

/-- rt1cube2dfem.hh:37-63 and its siblings (see below)  a map that has `inner` degrees of freedom on cells of dimension `d`, `face` on
their faces. -/
def byDim (d inner face max : Nat) (innerDOFs : Bool) : Sizes where
  fixedSize := true
  hasDOFs codim := (innerDOFs && codim == 0) || codim == 1
  size gt := if gt.dim = d then inner else if gt.dim = d - 1 then face else 0
  maxLocalSize := max

/-- rt1simplex2dfem.hh:37-63. -/
def rt1Simplex2 : Sizes := byDim 2 2 2 8 true
/-- rt1cube2dfem.hh:37-63. -/
def rt1Cube2 : Sizes := byDim 2 4 2 12 true
/-- rt1cube3dfem.hh:37-63. -/
def rt1Cube3 : Sizes := byDim 3 12 4 36 true
/-- rt2cube2dfem.hh:37-63. -/
def rt2Cube2 : Sizes := byDim 2 12 3 24 true
/-- bdm1simplex2dfem.hh:64-88. -/
def bdm1Simplex2 : Sizes := byDim 2 0 2 6 false
/-- bdm1cube2dfem.hh:64-88. -/
def bdm1Cube2 : Sizes := byDim 2 0 2 8 false

/-- edges0.5fem.hh:48-66  `EdgeS0_5FiniteElementMap`, for simplices of dimension `d`. -/
def edgeS05 (d : Nat) : Sizes where
  fixedSize := true
  hasDOFs codim := decide ((d : Int) - (codim : Int) = 1)
  size gt := if gt.eq (gtSimplex 1) then 1 else 0
  maxLocalSize := 2 * d

/-- powerfem.hh:65-83  `PowerFiniteElementMap`. -/
def power (dimR : Nat) (backend : Sizes) : Sizes where
  fixedSize := backend.fixedSize
  hasDOFs := backend.hasDOFs
  size gt := dimR * backend.size gt
  maxLocalSize := dimR * backend.maxLocalSize

/-- pkqkfem.hh:119-130  `PkQkLocalFiniteElementMap`: `hasDOFs`. (`size` throws.) -/
def pkqkHasDOFs (d order codim : Nat) : Bool :=
  if codim = 0 then decide (order = 0 ∨ order > 1) else if codim = d then decide (order > 0) else decide (order > 1)

/-- pkqkfem.hh:137-140  `PkQkLocalFiniteElementMap::maxLocalSize()`. -/
def pkqkMaxLocalSize (d : Nat) : Nat := 2 ^ d

/-- pkqkfem.hh:25-53  the orders for which the constructor of `PkQkLocalFiniteElementMap` finds elements: the recursion from
`maxP` on, here `n = maxP + 1`. The result is the order of the elements, `none` the exception. -/
def pkqkInit (order : Nat) : (n : Nat) → Option Nat
  | 0 => Option.none
  | n + 1 => if order = n then some n else pkqkInit order n

/-- pkqkfem.hh:101-112  `getFEM(gt)`: whether the element for cubes (`true`) or simplices (`false`) is returned. -/
def pkqkGet (gt : GeometryType) : Option Bool :=
  if gt.isCube then some true else if gt.isSimplex then some false else Option.none

/-- utility.hh:38-45  one iteration; the state is the size so far, `none` after `return 0`. -/
def blockSizeStep (st : Option Nat) (gtSize : Nat) : Option Nat :=
  match st with
  | Option.none => Option.none
  | some size =>
    if gtSize > 0 then (if size > 0 ∧ size ≠ gtSize then Option.none else some gtSize) else some size

/-- utility.hh:31-59, 81-85  `finiteElementMapBlockSize<FEM>()`, for maps with a static `size`. -/
def blockSize (dim : Nat) (size : GeometryType → Nat) : Nat :=
  ((List.range (dim + 1)).foldl (fun st d =>
    (List.range (2 ^ dim)).foldl (fun st id => blockSizeStep st (size { id, dim := d }))
      (blockSizeStep st (size { id := 0, dim := d, none := true }))) (some 0)).getD 0

/-! ## Orientation of simplices -/

/-- `std::next_permutation`: the next permutation in lexicographic order, the first one after the last; the second component is the
result. `a` is read from the back: the longest suffix that does not increase is reversed after its predecessor was exchanged with the last
greater entry. Used for `pk2Variants`, pkfem.hh:94-104. -/
def nextPermutation (a : List Nat) : List Nat × Bool :=
  let n := a.length
  match (List.range (n - 1)).reverse.find? fun i => decide (a.getD i 0 < a.getD (i + 1) 0) with
  | Option.none => (a.reverse, false)
  | some i =>
    match (List.range n).reverse.find? fun j => decide (a.getD i 0 < a.getD j 0) with
    | Option.none => (a, false)
    | some j =>
      let b := (a.set i (a.getD j 0)).set j (a.getD i 0)
      (b.take (i + 1) ++ (b.drop (i + 1)).reverse, true)

/-- pkfem.hh:94-104  the constructor in 2d: `_variant[i]` is the element for the vertex map at place `i`. -/
def pk2Variants : List (List Nat) :=
  ((List.range 6).foldl (fun (st : List (List Nat) × List Nat) _ => (st.1 ++ [st.2], (nextPermutation st.2).1)) ([], [0, 1, 2])).1

/-- pkfem.hh:107-122  `find(e)` in 2d, for a cell of type `gt` with the vertex indices `n`: the vertex map of the element.
`none`: the exception, or an access past the end. -/
def pk2Find (gt : GeometryType) (n : Nat → Nat) : Option (List Nat) :=
  if !gt.isSimplex then Option.none
  else
    let n0Compressed := (if n 0 > n 1 then 1 else 0) + (if n 0 > n 2 then 1 else 0)
    pk2Variants[2 * n0Compressed + (if n 1 > n 2 then 1 else 0)]?

/-- pkfem.hh:273-276  `compressPerm(vertexmap)`. -/
def compressPerm (m : Nat → Nat) : Nat := m 0 + (m 1 <<< 2) + (m 2 <<< 4) + (m 3 <<< 6)

/-- pkfem.hh:188-201  the constructor in 3d: the do-while loop (`fuel` bounds the iterations; 24 are needed) fills `_variant` and
`_perm_index`. -/
def pk3Loop : (fuel : Nat) → (variant : List (List Nat)) → (permIndex : Nat → Nat) → (vertexmap : List Nat) →
    List (List Nat) × (Nat → Nat)
  | 0, variant, permIndex, _ => (variant, permIndex)
  | fuel + 1, variant, permIndex, vertexmap =>
    let permIndex := setAt permIndex (compressPerm fun i => vertexmap.getD i 0) variant.length
    let variant := variant ++ [vertexmap]
    let next := nextPermutation vertexmap
    if next.2 then pk3Loop fuel variant permIndex next.1 else (variant, permIndex)

/-- pkfem.hh:188-201  `_variant` and `_perm_index` after the constructor. -/
def pk3Tables : List (List Nat) × (Nat → Nat) := pk3Loop 100 [] (fun _ => 0) [0, 1, 2, 3]

/-- pkfem.hh:220-223  the inner loop: the place of the smallest entry that is at least `i`. -/
def minIndex (m : Nat → Nat) (i : Nat) (n : Nat) : Option Nat :=
  (List.range n).foldl (fun (minIdx : Option Nat) j =>
    if (match minIdx with | Option.none => true | some l => decide (m j < m l)) && decide (m j ≥ i) then some j else minIdx)
    Option.none

/-- pkfem.hh:217-226  "reduce the indices to the interval 0..3". `none`: the assertion fails. -/
def reduceIndices (m : Nat → Nat) (n : Nat) : Option (Nat → Nat) :=
  (List.range n).foldlM (fun m i => (minIndex m i n).map fun j => setAt m j i) m

/-- pkfem.hh:204-228  `find(e)` in 3d, for a cell of type `gt` with the vertex indices `n`. -/
def pk3Find (gt : GeometryType) (n : Nat → Nat) : Option (List Nat) :=
  if !gt.isSimplex then Option.none
  else
    match reduceIndices n 4 with
    | Option.none => Option.none
    | some m => pk3Tables.1[pk3Tables.2 (compressPerm m)]?

/-! ## Orientation of faces and edges -/

/-- What the maps use of an intersection: `indexInInside()`, and the index of the outside cell if there is one.
Used for `faceOrient`, finiteelementmap.hh:246-259. -/
structure Intersection where
  face : Nat
  outside : Option Nat

/-- A cell: its index and its intersections. Used for `faceOrient`, finiteelementmap.hh:246-259. -/
structure Cell where
  index : Nat
  intersections : List Intersection

/-- `unsigned char x |= 1 << i`. Used for `faceOrient`, finiteelementmap.hh:246-259. -/
def orBit (x i : Nat) : Nat := (x ||| 2 ^ i) % 256

/-- finiteelementmap.hh:246-259 and bdm1simplex2dfem.hh:43-54, bdm1cube2dfem.hh:43-54  the loop over the grid: `orient`. -/
def faceOrient (cells : List Cell) : Nat → Nat :=
  cells.foldl (fun orient c =>
    c.intersections.foldl (fun orient is =>
      match is.outside with
      | some o => if o > c.index then setAt orient c.index (orBit (orient c.index) is.face) else orient
      | Option.none => orient) (setAt orient c.index 0)) fun _ => 0

/-- finiteelementmap.hh:263-267  `RTLocalFiniteElementMap::find(e)`: the number of the variant. `none`: an access past the end of the
array of variants. -/
def faceFind (variants : Nat) (cells : List Cell) (index : Nat) : Option Nat :=
  let o := faceOrient cells index
  if o < variants then some o else Option.none

/-- What `EdgeS0LocalFiniteElementMap` uses of a cell: its index and the global ids of its vertices.
Used for `edgeOrient`, finiteelementmap.hh:183-200. -/
structure VertexCell where
  index : Nat
  vid : Nat → Nat

/-- finiteelementmap.hh:183-200  the loop over the grid; `edges` are the pairs of vertices of the edges of the reference element. -/
def edgeOrient (edges : List (Nat × Nat)) (cells : List VertexCell) : Nat → Nat :=
  cells.foldl (fun orient c =>
    (List.range edges.length).foldl (fun orient i =>
      let e := edges.getD i (0, 0)
      if decide (e.1 > e.2) != decide (c.vid e.1 > c.vid e.2) then setAt orient c.index (orBit (orient c.index) i) else orient)
      (setAt orient c.index 0)) fun _ => 0

/-- finiteelementmap.hh:204-208  `EdgeS0LocalFiniteElementMap::find(e)`. -/
def edgeFind (edges : List (Nat × Nat)) (cells : List VertexCell) (index : Nat) : Option Nat :=
  let o := edgeOrient edges cells index
  if o < 2 ^ edges.length then some o else Option.none

/-! ## Variable order -/

/-- variableopbfem.hh:42-121, variableqkdgfem.hh:41-120, variablemonomfem.hh:41-131  the orders, for cells named by their index. -/
structure Variable where
  maxP : Nat
  polOrder : List Nat

/-- variableopbfem.hh:54-58 and its siblings  the constructor. The order is stored as `unsigned char`. -/
def Variable.init (maxP cells defaultP : Nat) : Variable := { maxP, polOrder := List.replicate cells (defaultP % 256) }

/-- variableopbfem.hh:79-85  `setOrder(e,p)`. `none`: the assertion fails. -/
def Variable.setOrder (v : Variable) (e p : Nat) : Option Variable :=
  if p ≤ v.maxP then some { v with polOrder := v.polOrder.set e (p % 256) } else Option.none

/-- variableopbfem.hh:87-94  `getOrder(e)`. `none`: the assertion fails. -/
def Variable.getOrder (v : Variable) (e : Nat) : Option Nat :=
  let p := v.polOrder.getD e 0
  if p ≤ v.maxP then some p else Option.none

/-- variableopbfem.hh:61-71  `find(e)`: the order of the element that is returned: `*(finiteElements_[p])` was set up with order `p` for p ≤ maxP. -/
def Variable.find (v : Variable) (e : Nat) : Option Nat := v.getOrder e

/-! ## Mimetic elements -/

/-- mimeticfem.hh:13-54  `MimeticLocalFiniteElementMap`: the vector `variant`, and how often its memory was allocated. -/
structure Mimetic where
  variant : List Nat
  memory : Nat

/-- mimeticfem.hh:26-32  the constructor: 20 variants, named by their number of faces. -/
def Mimetic.init : Mimetic := { variant := List.range 20, memory := 0 }

/-- mimeticfem.hh:35-48  `find(e)` for an element with `n` intersections. The result is a reference: the memory it points to and the
place. (`resize` is assumed to allocate new memory.) -/
def Mimetic.find (m : Mimetic) (n : Nat) : Mimetic × (Nat × Nat) :=
  if n < m.variant.length then (m, (m.memory, n))
  else
    let oldN := m.variant.length
    let variant := m.variant ++ List.replicate (n + 1 - oldN) 0
    let variant := (List.range' oldN (n + 1 - oldN)).foldl (fun v i => v.set i i) variant
    let m := { variant, memory := m.memory + 1 }
    (m, (m.memory, n))

/-- Reading through a reference. `none`: it dangles. Source: mimeticfem.hh:13-54. -/
def Mimetic.read (m : Mimetic) (r : Nat × Nat) : Option Nat := if r.1 = m.memory then m.variant[r.2]? else Option.none

end Verif.FEM
