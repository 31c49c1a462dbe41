import Verif.Model.IstlAccess
/-
Model of the diagonal blocks of a nested matrix, /repo/dune/pdelab/backend/istl/blockmatrixdiagonal.hh.

Simplifications: pointers to numbers are given by the block they point into and the position in the memory of the block, where a `FieldMatrix` stores its
rows one after the other. The index cache is represented by the list of the container indices of an entity, the message buffer by a list. A failing
assertion, an access out of range and an exception are `none`.
-/
namespace Verif.BlockDiagonal

open Istl

variable {K : Type} {n m : Nat}

/-- `matrix_element_vector`, blockmatrixdiagonal.hh:21-45: a `FieldMatrix`, given by its rows, or a `BlockVector` of the containers of the level below. -/
abbrev Diag (K : Type) (n m d : Nat) : Type := Vec (Fin m → K) n d

/-- `matrix_element_vector_from_matrix`, blockmatrixdiagonal.hh:50-64, and the constructor, 227-230. -/
def fromMatrix : (d : Nat) → Mat K n m d → Option (Diag K n m d)
  | 0, b => some (Vec.ofField b.field)
  | d + 1, b => ((List.range b.rows.length).mapM fun i => do
      let row ← b.rows[i]?
      let c ← find row i
      fromMatrix d c).map Vec.ofBlocks

/-- `invert_blocks`, blockmatrixdiagonal.hh:69-82, and `invert`, 232-235. `inv` is the inversion of a `FieldMatrix`, `none` for a singular one. -/
def invert (inv : (Fin n → Fin m → K) → Option (Fin n → Fin m → K)) : (d : Nat) → Diag K n m d → Option (Diag K n m d)
  | 0, b => (inv b.field).map Vec.ofField
  | d + 1, b => (b.blocks.mapM (invert inv d)).map Vec.ofBlocks

/-- `FieldMatrix::mv`: the product of a dense matrix and a vector. Used for `mv`, blockmatrixdiagonal.hh:87-91. -/
def fieldMv [Add K] [Mul K] [Zero K] (a : Fin n → Fin m → K) (x : Fin m → K) : Fin n → K :=
  fun k => (List.finRange m).foldl (fun s l => s + a k l * x l) 0

/-- The loop of `mv` over the blocks, blockmatrixdiagonal.hh:98-101: the blocks of the vectors must exist, further ones are not touched. -/
def mvLoop {C X Y : Type} (f : C → X → Y → Option Y) : List C → List X → List Y → Option (List Y)
  | [], _, ys => some ys
  | c :: cs, x :: xs, y :: ys => do
    let y' ← f c x y
    let ys' ← mvLoop f cs xs ys
    some (y' :: ys')
  | _ :: _, _, _ => none

/-- `mv`, blockmatrixdiagonal.hh:85-102 and 237-241. -/
def mv [Add K] [Mul K] [Zero K] : (d : Nat) → Diag K n m d → Vec K m d → Vec K n d → Option (Vec K n d)
  | 0, c, x, _ => some (Vec.ofField (fieldMv c.field x.field))
  | d + 1, c, x, y => (mvLoop (mv d) c.blocks x.blocks y.blocks).map Vec.ofBlocks

/-- `row_size`, blockmatrixdiagonal.hh:115-137 and 243-247: the number of columns; on the way to the blocks, the first block of every container is
accessed. -/
def rowSize : (d : Nat) → Diag K n m d → Option Nat
  | 0, _ => some m
  | d + 1, b => do
    let c ← b.blocks[0]?
    rowSize d c

/-- A pointer to a number: the path to the block, and the position in the block. Used for `row_begin`, blockmatrixdiagonal.hh:141-153. -/
structure Ptr where
  block : List Nat
  pos : Nat
  deriving DecidableEq, Repr

/-- A pointer in a block of a container. Used for `row_begin`, blockmatrixdiagonal.hh:193-197. -/
def Ptr.inBlock (k : Nat) (p : Ptr) : Ptr := ⟨k :: p.block, p.pos⟩

/-- `&(*c[k].begin())`, blockmatrixdiagonal.hh:145, 152. -/
def first (n m k : Nat) : Option Ptr := if k < n ∧ 0 < m then some ⟨[], k * m⟩ else none

/-- `it = c[k].end(); --it; &(*it) + 1`, blockmatrixdiagonal.hh:174-176, 184-186. -/
def behind (n m k : Nat) : Option Ptr := if k < n ∧ 0 < m then some ⟨[], k * m + (m - 1) + 1⟩ else none

/-- `row_begin`, blockmatrixdiagonal.hh:141-153, 193-197 and 249-253. The tag is `field_matrix_1_any` iff `n = 1` (tags.hh). -/
def rowBegin (ci : List Nat) : (d : Nat) → Diag K n m d → Int → Option Ptr
  | 0, _, i =>
    if n = 1 then (if i = -1 then first n m 0 else none)
    else (if i = 0 then do first n m (← ci[0]?) else none)
  | d + 1, b, i => do
    let k ← component ci i
    let c ← b.blocks[k]?
    (rowBegin ci d c (i - 1)).map (Ptr.inBlock k)

/-- `row_end`, blockmatrixdiagonal.hh:162-187, 199-203 and 255-259. The tag is `field_matrix_1_1` iff `n = 1` and `m = 1` (tags.hh). -/
def rowEnd (ci : List Nat) : (d : Nat) → Diag K n m d → Int → Option Ptr
  | 0, _, i =>
    if n = 1 then
      (if m = 1 then (if i = -1 then (first n m 0).map fun p => ⟨p.block, p.pos + 1⟩ else none)
      else (if i = -1 then behind n m 0 else none))
    else (if i = 0 then do behind n m (← ci[0]?) else none)
  | d + 1, b, i => do
    let k ← component ci i
    let c ← b.blocks[k]?
    (rowEnd ci d c (i - 1)).map (Ptr.inBlock k)

/-- `*it`. Used for `gather`, blockmatrixdiagonal.hh:309-322. -/
def deref : (d : Nat) → Diag K n m d → List Nat → Nat → Option K
  | 0, b, [], pos => do
    let k ← inRange n (pos / m)
    let l ← inRange m (pos % m)
    some (b.field k l)
  | d + 1, b, k :: path, pos => do
    let c ← b.blocks[k]?
    deref d c path pos
  | _, _, _, _ => none

/-- `*it += x`. Used for `scatter`, blockmatrixdiagonal.hh:330-345. -/
def addTo [Add K] (x : K) : (d : Nat) → Diag K n m d → List Nat → Nat → Option (Diag K n m d)
  | 0, b, [], pos => do
    let k ← inRange n (pos / m)
    let l ← inRange m (pos % m)
    some (Vec.ofField fun k' l' => if k' = k ∧ l' = l then b.field k' l' + x else b.field k' l')
  | d + 1, b, k :: path, pos => do
    let c ← b.blocks[k]?
    let c' ← addTo x d c path pos
    some (Vec.ofBlocks (b.blocks.set k c'))
  | _, _, _, _ => none

/-- The loop of `gather` over a row, blockmatrixdiagonal.hh:316-320. A block has `n * m` numbers, so a loop of more steps leaves the block. -/
def gatherRow (d : Nat) (D : Diag K n m d) (block : List Nat) (stop : Nat) : Nat → Nat → Option (List K)
  | 0, _ => none
  | fuel + 1, pos =>
    if pos = stop then some []
    else do
      let x ← deref d D block pos
      let xs ← gatherRow d D block stop fuel (pos + 1)
      some (x :: xs)

/-- The loop of `scatter` over a row, blockmatrixdiagonal.hh:336-344: reads from the buffer, returns the rest of it. -/
def scatterRow [Add K] (d : Nat) (block : List Nat) (stop : Nat) : Nat → Nat → Diag K n m d → List K → Option (Diag K n m d × List K)
  | 0, _, _, _ => none
  | fuel + 1, pos, D, buff =>
    if pos = stop then some (D, buff)
    else do
      let x ← buff[0]?
      let D' ← addTo x d D block pos
      scatterRow d block stop fuel (pos + 1) D' (buff.drop 1)

/-- `row_begin(ci)` and `row_end(ci)`, which must be in the same block. Used for `gather` and `scatter`, blockmatrixdiagonal.hh:316-317, 336-337. -/
def rowRange (d : Nat) (D : Diag K n m d) (ci : List Nat) : Option (List Nat × Nat × Nat) := do
  let b ← rowBegin ci d D ((ci.length : Int) - 1)
  let e ← rowEnd ci d D ((ci.length : Int) - 1)
  if b.block = e.block then some (b.block, b.pos, e.pos) else none

/-- `AddMatrixElementVectorDataHandle::size`, blockmatrixdiagonal.hh:297-306. -/
def dataSize (d : Nat) (D : Diag K n m d) : List (List Nat) → Option Nat
  | [] => some 0
  | _ :: cis => do
    let s ← rowSize d D
    let t ← dataSize d D cis
    some (s + t)

/-- `AddMatrixElementVectorDataHandle::gather`, blockmatrixdiagonal.hh:309-322. -/
def gather (d : Nat) (D : Diag K n m d) : List (List Nat) → Option (List K)
  | [] => some []
  | ci :: cis => do
    let r ← rowRange d D ci
    let xs ← gatherRow d D r.1 r.2.2 (n * m + 1) r.2.1
    let ys ← gather d D cis
    some (xs ++ ys)

/-- `AddMatrixElementVectorDataHandle::scatter`, blockmatrixdiagonal.hh:328-345. -/
def scatter [Add K] (d : Nat) : List (List Nat) → Diag K n m d → List K → Option (Diag K n m d × List K)
  | [], D, buff => some (D, buff)
  | ci :: cis, D, buff => do
    let r ← rowRange d D ci
    let s ← scatterRow d r.1 r.2.2 (n * m + 1) r.2.1 D buff
    scatter d cis s.1 s.2

end Verif.BlockDiagonal
