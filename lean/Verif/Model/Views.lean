import Mathlib.Algebra.Ring.Defs
/-
Model of the views of vectors and matrices on the degrees of freedom of an element (dune/pdelab/backend/common/uncachedvectorview.hh,
uncachedmatrixview.hh, aliasedvectorview.hh, aliasedmatrixview.hh) and of interpolation (dune/pdelab/gridfunctionspace/interpolate.hh).

Containers of the backend are functions of the container index, local containers are lists; access outside a local container is the
outcome `none`.
-/
namespace Verif.Views

/-- The index cache a view is bound to: the number of degrees of freedom of the element and their container indices.
Used for `read`, uncachedvectorview.hh:73-80. -/
structure Cache (I : Type) where
  size : Nat
  containerIndex : Nat → I

/-- A local function space that is a child of the space of the cache. Used for `readChild`, uncachedvectorview.hh:82-90. -/
structure Child where
  size : Nat
  localIndex : Nat → Nat

variable {I J K : Type} [DecidableEq I] [DecidableEq J] [Ring K]

/-- `local_container[i] = v`. Used for `read`, uncachedvectorview.hh:73-80. -/
def store (l : List K) (i : Nat) (v : K) : Option (List K) := if i < l.length then some (l.set i v) else none

/-- `container()[c] = v`. Used for `write`, uncachedvectorview.hh:177-184. -/
def assign (x : I → K) (c : I) (v : K) : I → K := fun d => if d = c then v else x d

/-- uncachedvectorview.hh:73-80  `read(local_container)`. -/
def read (x : I → K) (cache : Cache I) (l : List K) : Option (List K) :=
  (List.range cache.size).foldlM (fun l i => store l i (x (cache.containerIndex i))) l

/-- uncachedvectorview.hh:82-90  `read(child_lfs,local_container)`. -/
def readChild (x : I → K) (cache : Cache I) (child : Child) (l : List K) : Option (List K) :=
  (List.range child.size).foldlM (fun l i =>
    let local_index := child.localIndex i
    store l local_index (x (cache.containerIndex local_index))) l

/-- uncachedvectorview.hh:92-100  `read_sub_container`. -/
def readSub (x : I → K) (cache : Cache I) (child : Child) (l : List K) : Option (List K) :=
  (List.range child.size).foldlM (fun l i =>
    let local_index := child.localIndex i
    store l i (x (cache.containerIndex local_index))) l

/-- uncachedvectorview.hh:177-184  `write(local_container)`. -/
def write (cache : Cache I) (l : List K) (x : I → K) : Option (I → K) :=
  (List.range cache.size).foldlM (fun x i => do pure (assign x (cache.containerIndex i) (← l[i]?))) x

/-- uncachedvectorview.hh:186-193  `add(local_container)`. -/
def add (cache : Cache I) (l : List K) (x : I → K) : Option (I → K) :=
  (List.range cache.size).foldlM (fun x i => do
    pure (assign x (cache.containerIndex i) (x (cache.containerIndex i) + (← l[i]?)))) x

/-- uncachedvectorview.hh:197-205  `write(child_lfs,local_container)`. -/
def writeChild (cache : Cache I) (child : Child) (l : List K) (x : I → K) : Option (I → K) :=
  (List.range child.size).foldlM (fun x i => do
    let local_index := child.localIndex i
    pure (assign x (cache.containerIndex local_index) (← l[local_index]?))) x

/-- uncachedvectorview.hh:207-215  `add(child_lfs,local_container)`. -/
def addChild (cache : Cache I) (child : Child) (l : List K) (x : I → K) : Option (I → K) :=
  (List.range child.size).foldlM (fun x i => do
    let local_index := child.localIndex i
    pure (assign x (cache.containerIndex local_index) (x (cache.containerIndex local_index) + (← l[local_index]?)))) x

/-- uncachedvectorview.hh:220-228  `write_sub_container`. -/
def writeSub (cache : Cache I) (child : Child) (l : List K) (x : I → K) : Option (I → K) :=
  (List.range child.size).foldlM (fun x i => do
    let local_index := child.localIndex i
    pure (assign x (cache.containerIndex local_index) (← l[i]?))) x

/-- uncachedvectorview.hh:230-238  `add_sub_container`. -/
def addSub (cache : Cache I) (child : Child) (l : List K) (x : I → K) : Option (I → K) :=
  (List.range child.size).foldlM (fun x i => do
    let local_index := child.localIndex i
    pure (assign x (cache.containerIndex local_index) (x (cache.containerIndex local_index) + (← l[i]?)))) x

/-! ### Aliased views

The entries of a container are at addresses; a vector of the address space is a function of the address. The layout gives the address of a
container index. -/

/-- aliasedvectorview.hh:64-68 with istl/vector.hh:151-161  `bind`: the pointer `_data` to the first entry. -/
def aliasedData (address : I → Nat) (cache : Cache I) : Nat := address (cache.containerIndex 0)

/-- aliasedvectorview.hh:96-100  `operator()(lfs,i)`. -/
def aliasedGet (memory : Nat → K) (data : Nat) (child : Child) (i : Nat) : K := memory (data + child.localIndex i)

/-- aliasedvectorview.hh:168-172  `accumulate`. -/
def aliasedAccumulate (data : Nat) (weight : K) (child : Child) (n : Nat) (v : K) (memory : Nat → K) : Nat → K :=
  assign memory (data + child.localIndex n) (memory (data + child.localIndex n) + weight * v)

/-- aliasedvectorview.hh:174-178  `rawAccumulate`. -/
def aliasedRawAccumulate (data : Nat) (weight : K) (child : Child) (n : Nat) (v : K) (memory : Nat → K) : Nat → K :=
  aliasedAccumulate data weight child n v memory

/-! ### Matrices -/

/-- `container()(i,j) = v`. Used for `readMatrix`, uncachedmatrixview.hh:107-113. -/
def assignEntry (a : I → J → K) (i : I) (j : J) (v : K) : I → J → K := fun k l => if k = i ∧ l = j then v else a k l

/-- The double loop over the entries of a local matrix. Used for `readMatrix`, uncachedmatrixview.hh:107-113. -/
def entries (n m : Nat) : List (Nat × Nat) := (List.range n).flatMap fun i => (List.range m).map fun j => (i, j)

/-- uncachedmatrixview.hh:107-113 = aliasedmatrixview.hh:117-123  `read`; `l i j` are the entries of the local matrix, which has `n` rows and
`m` columns. -/
def readMatrix (a : I → J → K) (rows : Cache I) (cols : Cache J) (n m : Nat) (l : Nat → Nat → K) : Option (Nat → Nat → K) :=
  (entries rows.size cols.size).foldlM (fun l p =>
    if p.1 < n ∧ p.2 < m then some (assignEntry l p.1 p.2 (a (rows.containerIndex p.1) (cols.containerIndex p.2))) else none) l

/-- uncachedmatrixview.hh:208-214 = aliasedmatrixview.hh:214-220  `write`. -/
def writeMatrix (rows : Cache I) (cols : Cache J) (n m : Nat) (l : Nat → Nat → K) (a : I → J → K) : Option (I → J → K) :=
  (entries rows.size cols.size).foldlM (fun a p =>
    if p.1 < n ∧ p.2 < m then some (assignEntry a (rows.containerIndex p.1) (cols.containerIndex p.2) (l p.1 p.2)) else none) a

/-- uncachedmatrixview.hh:216-222 = aliasedmatrixview.hh:222-228  `add`. -/
def addMatrix (rows : Cache I) (cols : Cache J) (n m : Nat) (l : Nat → Nat → K) (a : I → J → K) : Option (I → J → K) :=
  (entries rows.size cols.size).foldlM (fun a p =>
    if p.1 < n ∧ p.2 < m then
      some (assignEntry a (rows.containerIndex p.1) (cols.containerIndex p.2)
        (a (rows.containerIndex p.1) (cols.containerIndex p.2) + l p.1 p.2))
    else none) a

/-- aliasedmatrixview.hh:93-98 with istl/bcrsmatrix.hh:236-246  `bind`: the pointer to the first entry of the block. -/
def aliasedMatrixData (address : I → J → Nat) (rows : Cache I) (cols : Cache J) : Nat :=
  address (rows.containerIndex 0) (cols.containerIndex 0)

/-- aliasedmatrixview.hh:257-261  `accumulate`. -/
def aliasedMatrixAccumulate (cols : Cache J) (data : Nat) (weight : K) (lfsv : Child) (i : Nat) (lfsu : Child) (j : Nat) (value : K)
    (memory : Nat → K) : Nat → K :=
  let k := data + (lfsv.localIndex i * cols.size + lfsu.localIndex j)
  assign memory k (memory k + weight * value)

/-- aliasedmatrixview.hh:263-267  `rawAccumulate`. -/
def aliasedMatrixRawAccumulate (cols : Cache J) (data : Nat) (_weight : K) (lfsv : Child) (i : Nat) (lfsu : Child) (j : Nat) (value : K)
    (memory : Nat → K) : Nat → K :=
  let k := data + (lfsv.localIndex i * cols.size + lfsu.localIndex j)
  assign memory k (memory k + value)

/-! ### Interpolation -/

/-- A leaf of the local function space bound to an element: its degrees of freedom and the interpolation of its finite element, which maps
functions to lists of coefficients; `none` if the space has no finite element on the element (localfunctionspace.hh:597-606: asking for it
violates an assertion). -/
structure LeafSpace (P K : Type) where
  child : Child
  interpolation : Option ((P → List K) → List K)

/-- A tree of functions bound to an element. A leaf has the number of components of its values. Used for `interpolatePair`, interpolate.hh:102-160. -/
inductive Functions (P K : Type) where
  | leaf (dimension : Nat) (f : P → List K)
  | node (children : List (Functions P K))

/-- A tree of local function spaces. Used for `interpolatePair`, interpolate.hh:102-160. -/
inductive Spaces (P K : Type) where
  | leaf (lfs : LeafSpace P K)
  | node (children : List (Spaces P K))

variable {P : Type}

mutual
/-- The leaves in the order of `TypeTree::applyToTree`. Used for `interpolateComponents`, interpolate.hh:68-88. -/
def Spaces.leaves : Spaces P K → List (LeafSpace P K)
  | .leaf lfs => [lfs]
  | .node children => leavesList children
/-- The leaves of a list of trees. Used for `interpolatePair`, interpolate.hh:102-160. -/
def leavesList : List (Spaces P K) → List (LeafSpace P K)
  | [] => []
  | s :: ss => s.leaves ++ leavesList ss
end

/-- interpolate.hh:36-47, 68-88  the body of the visitors of the leaves: there is no check for spaces without finite element. The vector
`xl` is overwritten by the interpolation. -/
def interpolateLeaf (cache : Cache I) (f : P → List K) (lfs : LeafSpace P K) (x : I → K) : Option (I → K) := do
  let interpolation ← lfs.interpolation
  writeSub cache lfs.child (interpolation f) x

/-- interpolate.hh:68-88  `InterpolateLeafFromVectorVisitor`: the state contains `index`. -/
def interpolateComponents (cache : Cache I) (f : P → List K) (leaves : List (LeafSpace P K)) (x : I → K) : Option (I → K) :=
  (leaves.foldlM (fun (s : Nat × (I → K)) lfs => do
    let x ← interpolateLeaf cache (fun p => [(f p).getD s.1 0]) lfs s.2
    pure (s.1 + 1, x)) (0, x)).map Prod.snd

/-- interpolate.hh:36-47  `InterpolateLeafFromScalarVisitor`. -/
def interpolateScalar (cache : Cache I) (f : P → List K) (leaves : List (LeafSpace P K)) (x : I → K) : Option (I → K) :=
  leaves.foldlM (fun x lfs => interpolateLeaf cache f lfs x) x

mutual
/-- interpolate.hh:102-160  `InterpolateVisitor` with `TypeTree::applyToTreePair`; combinations that do not compile are `none`. -/
def interpolatePair (cache : Cache I) : Functions P K → Spaces P K → (I → K) → Option (I → K)
  | .leaf _ f, .leaf lfs, x => if lfs.child.size = 0 then some x else interpolateLeaf cache f lfs x
  | .leaf dimension f, .node children, x =>
    if dimension = 1 then interpolateScalar cache f (leavesList children) x
    else if (leavesList children).length = dimension then interpolateComponents cache f (leavesList children) x
    else none
  | .node _, .leaf _, _ => none
  | .node fs, .node ss, x => interpolatePairs cache fs ss x
/-- The children of two nodes, which must be as many. Used for `interpolatePair`, interpolate.hh:102-160. -/
def interpolatePairs (cache : Cache I) : List (Functions P K) → List (Spaces P K) → (I → K) → Option (I → K)
  | [], [], x => some x
  | f :: fs, s :: ss, x => do interpolatePairs cache fs ss (← interpolatePair cache f s x)
  | _, _, _ => none
end

/-- An element of the entity set: the index cache, the functions and the spaces bound to it. Used for `interpolate`, interpolate.hh:176-216. -/
structure Element (I P K : Type) where
  cache : Cache I
  functions : Functions P K
  spaces : Spaces P K

/-- interpolate.hh:176-216  `interpolate`. -/
def interpolate (elements : List (Element I P K)) (x : I → K) : Option (I → K) :=
  elements.foldlM (fun x e => interpolatePair e.cache e.functions e.spaces x) x

end Verif.Views
