/-
Model of the "simple" matrix backends.
Sources: /repo/dune/pdelab/backend/simple/sparse.hh (CSR) and .../backend/simple/matrix.hh (dense)
Container indices of the simple backends are flat, `ri[0]`/`ci[0]` become numbers.
`ElementType` is an arbitrary type with the operations used.
-/
namespace Verif.SimpleMatrix

/-- sparse.hh:42-54  `SparseMatrixData`. -/
structure Csr (α : Type) where
  rows : Nat
  cols : Nat
  nonZeros : Nat
  data : List α
  colindex : List Nat
  rowoffset : List Nat
deriving Repr, DecidableEq

/-- sparse.hh:296-300  the running offsets written by `std::transform` with `calc_offset`. -/
def offsets : Nat → List (List Nat) → List Nat
  | _, [] => []
  | o, row :: rest => (o + row.length) :: offsets (o + row.length) rest

/-- sparse.hh:286-315  `allocate_matrix`. `pattern` is the content of the `unordered_set` of every
row in iteration order (any order); `rows`, `cols` are the sizes of the test and trial spaces.
`none`: more pattern rows than the offsets array has room for (undefined behaviour). `std::sort`
is modelled by Lean's merge sort. -/
def allocate {α : Type} (rows cols : Nat) (pattern : List (List Nat)) (e : α) : Option (Csr α) :=
  if pattern.length ≤ rows then
    -- `resize(rows+1)` zero-initialises; the offsets are written from position 1
    let ro := 0 :: (offsets 0 pattern ++ List.replicate (rows - pattern.length) 0)
    let nnz := ro.getLast?.getD 0
    some { rows := rows, cols := cols, nonZeros := nnz, data := List.replicate nnz e,
           colindex := pattern.flatMap fun row => row.mergeSort (fun a b => decide (a ≤ b)),
           rowoffset := ro }
  else none

/-- `std::lower_bound(begin,end,c)` on a range sorted in ascending order, as an offset from
`begin` (sparse.hh:223, 233). -/
def lowerBoundIdx (c : Nat) : List Nat → Nat
  | [] => 0
  | k :: ks => if k < c then lowerBoundIdx c ks + 1 else 0

/-- sparse.hh:218-226 (and 228-236)  the position in the data array used by `operator()(ri,ci)`.
`none`: the `assert (it != end)` fails or an offset is read out of range. -/
def Csr.find {α : Type} (A : Csr α) (r c : Nat) : Option Nat :=
  A.rowoffset[r]?.bind fun b => A.rowoffset[r + 1]?.bind fun e =>
    let range := (A.colindex.drop b).take (e - b)
    let k := lowerBoundIdx c range
    if k < range.length then some (b + k) else none

/-- sparse.hh:228-236  reading `A(r,c)`. -/
def Csr.get {α : Type} (A : Csr α) (r c : Nat) : Option α :=
  (A.find r c).bind fun pos => A.data[pos]?

/-- `A(r,c) = f(A(r,c))` through the reference returned by sparse.hh:218-226. -/
def Csr.modify {α : Type} (A : Csr α) (r c : Nat) (f : α → α) : Option (Csr α) :=
  (A.find r c).bind fun pos => A.data[pos]?.map fun v => { A with data := A.data.set pos (f v) }

/-- sparse.hh:183-187  `operator=(e)`. -/
def Csr.fill {α : Type} (A : Csr α) (e : α) : Csr α := { A with data := A.data.map fun _ => e }

/-- sparse.hh:189-194  `operator*=(e)`: every stored value becomes `e * value`. -/
def Csr.scale {α : Type} [Mul α] (A : Csr α) (e : α) : Csr α := { A with data := A.data.map (e * ·) }

/-- `std::fill` over the positions `[b,e)`. Used for `Csr.clearRow`, sparse.hh:268-274. -/
def fillRange {α : Type} (l : List α) (b e : Nat) (v : α) : List α :=
  l.take b ++ List.replicate (e - b) v ++ l.drop e

/-- sparse.hh:268-274  `clear_row` (`clear_row_block`, 276-282, is the same code). -/
def Csr.clearRow {α : Type} [Zero α] (A : Csr α) (r : Nat) (d : α) : Option (Csr α) :=
  A.rowoffset[r]?.bind fun b => A.rowoffset[r + 1]?.bind fun e =>
    ({ A with data := fillRange A.data b e 0 } : Csr α).modify r r fun _ => d

/-- `std::inner_product` (numeric): left-to-right accumulation from an initial value. Used for `Csr.rowProduct`, sparse.hh:317-330. -/
def innerProduct {α : Type} [Add α] [Mul α] (init : α) : List α → List α → α
  | a :: as, b :: bs => innerProduct (init + a * b) as bs
  | _, _ => init

/-- sparse.hh:317-330  `sparse_inner_product`. `none`: column index outside of `x` or offsets out
of range. -/
def Csr.rowProduct {α : Type} [Add α] [Mul α] [Zero α] (A : Csr α) (x : List α) (r : Nat) : Option α :=
  A.rowoffset[r]?.bind fun b => A.rowoffset[r + 1]?.bind fun e =>
    ((A.colindex.drop b).take (e - b)).mapM (fun c => x[c]?) |>.map fun xs =>
      innerProduct 0 ((A.data.drop b).take (e - b)) xs

/-- sparse.hh:196-205  `mv`; `none` also if one of the size assertions fails. -/
def Csr.mv {α : Type} [Add α] [Mul α] [Zero α] (A : Csr α) (x y : List α) : Option (List α) :=
  if y.length = A.rows ∧ x.length = A.cols then
    (List.range A.rows).mapM fun r => A.rowProduct x r
  else none

/-- sparse.hh:207-216  `usmv`. -/
def Csr.usmv {α : Type} [Add α] [Mul α] [Zero α] (A : Csr α) (alpha : α) (x y : List α) :
    Option (List α) :=
  if y.length = A.rows ∧ x.length = A.cols then
    (List.range A.rows).mapM fun r =>
      (A.rowProduct x r).bind fun p => y[r]?.map fun v => v + alpha * p
  else none

/-- matrix.hh:222-224  the members of the dense `MatrixContainer`. -/
structure Dense (α : Type) where
  rows : Nat
  cols : Nat
  container : List α
deriving Repr, DecidableEq

/-- matrix.hh:50-62  constructors. -/
def Dense.new {α : Type} (rows cols : Nat) (e : α) : Dense α :=
  { rows := rows, cols := cols, container := List.replicate (rows * cols) e }

/-- matrix.hh:173-176. -/
def Dense.get {α : Type} (A : Dense α) (r c : Nat) : Option α := A.container[r * A.cols + c]?

/-- matrix.hh:168-171  writing through the returned reference. -/
def Dense.modify {α : Type} (A : Dense α) (r c : Nat) (f : α → α) : Option (Dense α) :=
  A.container[r * A.cols + c]?.map fun v =>
    { A with container := A.container.set (r * A.cols + c) (f v) }

/-- matrix.hh:133-137. -/
def Dense.fill {α : Type} (A : Dense α) (e : α) : Dense α :=
  { A with container := A.container.map fun _ => e }

/-- matrix.hh:139-144. -/
def Dense.scale {α : Type} [Mul α] (A : Dense α) (e : α) : Dense α :=
  { A with container := A.container.map (e * ·) }

/-- matrix.hh:208-212 (and 214-218). -/
def Dense.clearRow {α : Type} [Zero α] (A : Dense α) (r : Nat) (d : α) : Option (Dense α) :=
  if (r + 1) * A.cols ≤ A.container.length then
    ({ A with container := fillRange A.container (r * A.cols) ((r + 1) * A.cols) 0 } : Dense α).modify
      r r fun _ => d
  else none

/-- matrix.hh:146-155  `mv`: one inner product per entry of `y`, `rowit` advancing by `_cols`.
`none`: reading past the end of the container or of `x`. -/
def Dense.mv {α : Type} [Add α] [Mul α] [Zero α] (A : Dense α) (x y : List α) : Option (List α) :=
  (List.range y.length).mapM fun r =>
    if (r + 1) * A.cols ≤ A.container.length ∧ A.cols ≤ x.length then
      some (innerProduct 0 ((A.container.drop (r * A.cols)).take A.cols) x)
    else none

/-- matrix.hh:157-166  `usmv`. -/
def Dense.usmv {α : Type} [Add α] [Mul α] [Zero α] (A : Dense α) (alpha : α) (x y : List α) :
    Option (List α) :=
  (List.range y.length).mapM fun r =>
    if (r + 1) * A.cols ≤ A.container.length ∧ A.cols ≤ x.length then
      y[r]?.map fun v => v + alpha * innerProduct 0 ((A.container.drop (r * A.cols)).take A.cols) x
    else none

/-- matrix.hh:83-101  copy assignment: the shape is only taken over if the target has no rows and
no columns, the container always. (Both sides attached or the target unattached.) -/
def Dense.assign {α : Type} (A rhs : Dense α) : Dense α :=
  if A.rows = 0 ∧ A.cols = 0 then rhs
  else { A with container := rhs.container }

/-- The modifying calls of the matrix interface that are common to both backends. Source: simple/matrix.hh:133-212, simple/sparse.hh:183-274. -/
inductive Op (α : Type) where
  | write (r c : Nat) (v : α)     -- `A(r,c) = v`
  | add (r c : Nat) (v : α)       -- `A(r,c) += v`
  | scale (e : α)                 -- `A *= e`
  | zero                          -- `A = 0`
  | clearRow (r : Nat) (d : α)    -- `A.clear_row(r,d)`

/-- One call on the CSR backend. Source: simple/sparse.hh:183-274. -/
def Csr.step {α : Type} [Add α] [Mul α] [Zero α] (A : Csr α) : Op α → Option (Csr α)
  | .write r c v => A.modify r c fun _ => v
  | .add r c v => A.modify r c fun w => w + v
  | .scale e => some (A.scale e)
  | .zero => some (A.fill 0)
  | .clearRow r d => A.clearRow r d

/-- One call on the dense backend. Source: simple/matrix.hh:133-212. -/
def Dense.step {α : Type} [Add α] [Mul α] [Zero α] (A : Dense α) : Op α → Option (Dense α)
  | .write r c v => A.modify r c fun _ => v
  | .add r c v => A.modify r c fun w => w + v
  | .scale e => some (A.scale e)
  | .zero => some (A.fill 0)
  | .clearRow r d => A.clearRow r d

end Verif.SimpleMatrix
