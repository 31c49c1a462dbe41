import Verif.Model.Pattern
import Mathlib.Algebra.Group.Basic
/-
Model of the access to elements of nested ISTL vectors and matrices,
/repo/dune/pdelab/backend/istl/vectorhelpers.hh, matrixhelpers.hh, vector.hh, bcrsmatrix.hh, and of the construction of matrices from
patterns, bcrsmatrixbackend.hh.

Simplifications: blocks of dynamic size (`tags::dynamic_vector`, `tags::dynamic_matrix`) are left out, the backend does not create them. The values
of newly allocated elements are a parameter. A matrix does not store its number of columns; asking whether an entry
in a column beyond that exists is answered by no. A failing assertion, an access out of range or to an entry that is not in the
pattern, and an exception are `none`.
-/
namespace Verif.Istl

open Pattern

variable {K : Type}

/-- A reference to an element: its value, and the container after an assignment through the reference.
Used for `accessVector`, vectorhelpers.hh:24-33. -/
structure Ref (K C : Type) where
  value : K
  assign : K → C

/-- `FieldVector<K,n>` (level 0), and `BlockVector` of vectors of the level below. Used for `accessVector`, vectorhelpers.hh:24-33. -/
def Vec (K : Type) (n : Nat) : Nat → Type
  | 0 => Fin n → K
  | d + 1 => List (Vec K n d)

/-- The components of a `FieldVector`. Used for `accessVector`, vectorhelpers.hh:24-33. -/
def Vec.field {n : Nat} (b : Vec K n 0) : Fin n → K := b

/-- A `FieldVector` with the given components. Used for `clearMatrixRowBlock`, matrixhelpers.hh:307-334. -/
def Vec.ofField {n : Nat} (f : Fin n → K) : Vec K n 0 := f

/-- The blocks of a block vector. Used for `accessVector`, vectorhelpers.hh:24-33. -/
def Vec.blocks {n d : Nat} (b : Vec K n (d + 1)) : List (Vec K n d) := b

/-- A block vector with the given blocks. Used for `accessVector`, vectorhelpers.hh:24-33. -/
def Vec.ofBlocks {n d : Nat} (l : List (Vec K n d)) : Vec K n (d + 1) := l

/-- `ci[i]`, for `int i`. Used for `accessVector`, vectorhelpers.hh:24-33. -/
def component (ci : List Nat) (i : Int) : Option Nat :=
  if 0 ≤ i then ci[i.toNat]? else none

/-- An index of a block of fixed size. Used for `accessVector`, vectorhelpers.hh:24-33. -/
def inRange (n k : Nat) : Option (Fin n) := if h : k < n then some ⟨k, h⟩ else none

/-- Assignment to a component of a `FieldVector`. Used for `accessVector`, vectorhelpers.hh:24-33. -/
def setAt {n : Nat} (b : Vec K n 0) (k : Fin n) (x : K) : Vec K n 0 := Vec.ofField fun l => if l = k then x else b.field l

/-- `access_vector_element`, vectorhelpers.hh:24-33 (`field_vector_1`), 35-41 (`field_vector_n`), 43-48 (`block_vector`); the versions for
constant vectors, 51-75, are the same. The tag is `field_vector_1` iff `n = 1` (tags.hh). -/
def accessVector {n : Nat} (ci : List Nat) : (d : Nat) → Vec K n d → Int → Option (Ref K (Vec K n d))
  | 0, b, i =>
    if n = 1 then
      (if i = -1 ∨ i = 0 then (inRange n 0).map fun k => ⟨b.field k, setAt b k⟩ else none)
    else
      (if i = 0 then do
        let k ← inRange n (← ci[0]?)
        some ⟨b.field k, setAt b k⟩
      else none)
  | d + 1, b, i => do
    let k ← component ci i
    let c ← b.blocks[k]?
    let r ← accessVector ci d c (i - 1)
    some ⟨r.value, fun x => Vec.ofBlocks (b.blocks.set k (r.assign x))⟩

/-- `BlockVector::operator[]`, vector.hh:239-247. -/
def Vec.at {n d : Nat} (v : Vec K n d) (ci : List Nat) : Option (Ref K (Vec K n d)) :=
  accessVector ci d v ((ci.length : Int) - 1)

/-- `FieldMatrix<K,n,m>` (level 0), and `BCRSMatrix` of matrices of the level below: the rows with the columns of their entries.
Used for `accessMatrix`, matrixhelpers.hh:194-235. -/
def Mat (K : Type) (n m : Nat) : Nat → Type
  | 0 => Fin n → Fin m → K
  | d + 1 => List (List (Nat × Mat K n m d))

/-- The entries of a `FieldMatrix`. Used for `writeIfExistsToBlock`, matrixhelpers.hh:382-419. -/
def Mat.field {n m : Nat} (b : Mat K n m 0) : Fin n → Fin m → K := b

/-- A `FieldMatrix` with the given entries. Used for `clearMatrixRowBlock`, matrixhelpers.hh:307-334. -/
def Mat.ofField {n m : Nat} (f : Fin n → Fin m → K) : Mat K n m 0 := f

/-- The rows of a `BCRSMatrix`. Used for `accessMatrix`, matrixhelpers.hh:194-235. -/
def Mat.rows {n m d : Nat} (b : Mat K n m (d + 1)) : List (List (Nat × Mat K n m d)) := b

/-- A `BCRSMatrix` with the given rows. Used for `accessMatrix`, matrixhelpers.hh:194-235. -/
def Mat.ofRows {n m d : Nat} (l : List (List (Nat × Mat K n m d))) : Mat K n m (d + 1) := l

/-- The entry of a row in column `j`. Used for `accessMatrix`, matrixhelpers.hh:194-235. -/
def find {B : Type} : List (Nat × B) → Nat → Option B
  | [], _ => none
  | x :: xs, j => if x.1 = j then some x.2 else find xs j

/-- Assignment to the entry of a row in column `j`. Used for `accessMatrix`, matrixhelpers.hh:194-235. -/
def replace {B : Type} : List (Nat × B) → Nat → B → List (Nat × B)
  | [], _, _ => []
  | x :: xs, j, b => if x.1 = j then (j, b) :: xs else x :: replace xs j b

/-- Assignment to an entry of a `FieldMatrix`. Used for `accessMatrix`, matrixhelpers.hh:194-235. -/
def setEntry {n m : Nat} (b : Mat K n m 0) (k : Fin n) (l : Fin m) (x : K) : Mat K n m 0 :=
  Mat.ofField fun k' l' => if k' = k ∧ l' = l then x else b.field k' l'

/-- A reference to an entry of a `FieldMatrix`. Used for `accessMatrix`, matrixhelpers.hh:194-235. -/
def entryRef {n m : Nat} (b : Mat K n m 0) (k l : Option Nat) : Option (Ref K (Mat K n m 0)) := do
  let k ← inRange n (← k)
  let l ← inRange m (← l)
  some ⟨b.field k l, setEntry b k l⟩

/-- `access_matrix_element`, matrixhelpers.hh:194-235; the versions for constant matrices, 238-279, are the same. The tags are given by `n = 1` and
`m = 1` (tags.hh). -/
def accessMatrix {n m : Nat} (ri ci : List Nat) : (d : Nat) → Mat K n m d → Int → Int → Option (Ref K (Mat K n m d))
  | 0, b, i, j =>
    if n = 1 then
      (if m = 1 then (if i = -1 ∧ j = -1 then entryRef b (some 0) (some 0) else none)
      else (if i = -1 ∧ j = 0 then entryRef b (some 0) ci[0]? else none))
    else
      (if m = 1 then (if i = 0 ∧ j = -1 then entryRef b ri[0]? (some 0) else none)
      else (if i = 0 ∧ j = 0 then entryRef b ri[0]? ci[0]? else none))
  | d + 1, b, i, j => do
    let k ← component ri i
    let l ← component ci j
    let row ← b.rows[k]?
    let c ← find row l
    let r ← accessMatrix ri ci d c (i - 1) (j - 1)
    some ⟨r.value, fun x => Mat.ofRows (b.rows.set k (replace row l (r.assign x)))⟩

/-- `BCRSMatrix::operator()`, bcrsmatrix.hh:212-220. -/
def Mat.at {n m d : Nat} (a : Mat K n m d) (ri ci : List Nat) : Option (Ref K (Mat K n m d)) :=
  accessMatrix ri ci d a ((ri.length : Int) - 1) ((ci.length : Int) - 1)

/-- `b[k] = 0` for a row of a `FieldMatrix`. Used for `clearMatrixRow`, matrixhelpers.hh:283-304. -/
def zeroRow [Zero K] {n m : Nat} (b : Mat K n m 0) (k : Fin n) : Mat K n m 0 :=
  Mat.ofField fun k' l => if k' = k then 0 else b.field k' l

/-- `clear_matrix_row`, matrixhelpers.hh:283-304. -/
def clearMatrixRow [Zero K] {n m : Nat} (ri : List Nat) : (d : Nat) → Mat K n m d → Int → Option (Mat K n m d)
  | 0, b, i =>
    if n = 1 then (if i = -1 then (inRange n 0).map (zeroRow b) else none)
    else (if i = 0 then do some (zeroRow b (← inRange n (← ri[0]?))) else none)
  | d + 1, b, i => do
    let k ← component ri i
    let row ← b.rows[k]?
    let row' ← row.mapM fun x => (clearMatrixRow ri d x.2 (i - 1)).map fun c => (x.1, c)
    some (Mat.ofRows (b.rows.set k row'))

/-- `clear_matrix_row_block`, matrixhelpers.hh:307-334. -/
def clearMatrixRowBlock [Zero K] {n m : Nat} (ri : List Nat) : (d : Nat) → Mat K n m d → Int → Option (Mat K n m d)
  | 0, _, i =>
    if n = 1 then (if m = 1 then (if i = -1 then some (Mat.ofField fun _ _ => 0) else none) else none)
    else (if i = 0 then some (Mat.ofField fun _ _ => 0) else none)
  | d + 1, b, i => do
    let k ← component ri i
    let row ← b.rows[k]?
    let row' ← row.mapM fun x => (clearMatrixRowBlock ri d x.2 (i - 1)).map fun c => (x.1, c)
    some (Mat.ofRows (b.rows.set k row'))

/-- `write_matrix_element_if_exists`, matrixhelpers.hh:338-377. -/
def writeIfExists {n m : Nat} (v : K) (ri ci : List Nat) : (d : Nat) → Mat K n m d → Int → Int → Option (Mat K n m d)
  | 0, b, i, j =>
    if n = 1 then
      (if m = 1 then (if i = -1 ∧ j = -1 then (entryRef b (some 0) (some 0)).map fun r => r.assign v else none)
      else (if i = -1 ∧ j = 0 then (entryRef b (some 0) ci[0]?).map fun r => r.assign v else none))
    else
      (if m = 1 then (if i = 0 ∧ j = -1 then (entryRef b ri[0]? (some 0)).map fun r => r.assign v else none)
      else (if i = 0 ∧ j = 0 then (entryRef b ri[0]? ci[0]?).map fun r => r.assign v else none))
  | d + 1, b, i, j => do
    let k ← component ri i
    let l ← component ci j
    let row ← b.rows[k]?
    if (find row l).isSome then do
      let c ← find row l
      let c' ← writeIfExists v ri ci d c (i - 1) (j - 1)
      some (Mat.ofRows (b.rows.set k (replace row l c')))
    else some b

/-- `write_matrix_element_if_exists_to_block`, matrixhelpers.hh:382-419. The loop over the diagonal, 395-396, leaves the block if it has
more rows than columns. -/
def writeIfExistsToBlock {n m : Nat} (v : K) (ri ci : List Nat) : (d : Nat) → Mat K n m d → Int → Int → Option (Mat K n m d)
  | 0, b, i, j =>
    if n = 1 then
      (if m = 1 then (if i = -1 ∧ j = -1 then (entryRef b (some 0) (some 0)).map fun r => r.assign v else none) else none)
    else
      (if m = 1 then none
      else (if i = 0 ∧ j = 0 ∧ n ≤ m then some (Mat.ofField fun k l => if k.val = l.val then v else b.field k l) else none))
  | d + 1, b, i, j => do
    let k ← component ri i
    let l ← component ci j
    let row ← b.rows[k]?
    if (find row l).isSome then do
      let c ← find row l
      let c' ← writeIfExistsToBlock v ri ci d c (i - 1) (j - 1)
      some (Mat.ofRows (b.rows.set k (replace row l c')))
    else some b

/-- `BCRSMatrix::clear_row`, bcrsmatrix.hh:254-258. -/
def Mat.clearRow [Zero K] {n m d : Nat} (a : Mat K n m d) (ri : List Nat) (diagonal : K) : Option (Mat K n m d) := do
  let a ← clearMatrixRow ri d a ((ri.length : Int) - 1)
  writeIfExists diagonal ri ri d a ((ri.length : Int) - 1) ((ri.length : Int) - 1)

/-- `BCRSMatrix::clear_row_block`, bcrsmatrix.hh:260-264. -/
def Mat.clearRowBlock [Zero K] {n m d : Nat} (a : Mat K n m d) (ri : List Nat) (diagonal : K) : Option (Mat K n m d) := do
  let a ← clearMatrixRowBlock ri d a ((ri.length : Int) - 1)
  writeIfExistsToBlock diagonal ri ri d a ((ri.length : Int) - 1) ((ri.length : Int) - 1)

/-- `PatternStatistics`, patternstatistics.hh:13-93. -/
structure Stats where
  nnz : Nat
  longestRow : Nat
  overflow : Nat
  estimate : Nat
  rows : Nat
  deriving DecidableEq, Repr

/-- `setrowsize(i,row_sizes[i])` and `setIndices(i,p.begin(i),p.end(i))`, bcrsmatrixbackend.hh:109, 116: the number of indices must be the size
announced. `g` is the value of new elements. -/
def allocateRow {n m : Nat} (g : K) (p : Pat) (sizes : List Nat) (i : Nat) : Option (List (Nat × Mat K n m 0)) := do
  let s ← sizes[i]?
  let cols ← p.columns i
  if cols.length = s then some (cols.map fun j => (j, Mat.ofField fun _ _ => g)) else none

/-- `allocate_bcrs_matrix`, bcrsmatrixbackend.hh:86-121 (leaf) and 136-165 (interior). The orderings are those the pattern was constructed with, so
their block counts are given by the shape. -/
def allocate {n m : Nat} (g : K) : (d : Nat) → Shape → NPat → Option (Mat K n m (d + 1) × List Stats)
  | 0, .leaf rows _, .leaf p => do
    let l ← (List.range rows).mapM (allocateRow g p p.sizes)
    some (Mat.ofRows l, [⟨((List.range rows).map fun i => p.sizes.getD i 0).sum,
      ((List.range rows).map fun i => p.sizes.getD i 0).foldl max 0, p.overflowCount, p.entriesPerRow, rows⟩])
  | d + 1, .node rows cols sub, t => do
    let l ← (List.range rows).mapM fun i => (List.range cols).mapM fun j => do
      let r ← allocate g d (sub i j) (← t.sub [(i, j)])
      some ((j, r.1), r.2)
    some (Mat.ofRows (l.map fun row => row.map (·.1)), l.flatMap fun row => row.flatMap (·.2))
  | _, _, _ => none

end Verif.Istl
