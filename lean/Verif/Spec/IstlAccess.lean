import Verif.Model.IstlAccess
import Verif.Spec.Pattern
import Mathlib.Data.Finset.Card
import Mathlib.Algebra.BigOperators.Group.Finset.Defs
import Mathlib.Data.Finset.Lattice.Fold
/-
Nested vectors and matrices as families of numbers: an entry is given by the positions in all levels, from the outermost one to the innermost one.
-/
namespace Verif.Istl

open Pattern

variable {K : Type}

/-- The number at a position of a vector. -/
def entryV {n : Nat} : (d : Nat) → Vec K n d → List Nat → Option K
  | 0, b, [k] => if h : k < n then some (b.field ⟨k, h⟩) else none
  | d + 1, b, k :: p => (b.blocks[k]?).bind fun c => entryV d c p
  | _, _, _ => none

/-- The number at a position of a matrix, if it is in the pattern. -/
def entryM {n m : Nat} : (d : Nat) → Mat K n m d → List Nat → List Nat → Option K
  | 0, b, [k], [l] => if h : k < n ∧ l < m then some (b.field ⟨k, h.1⟩ ⟨l, h.2⟩) else none
  | d + 1, b, k :: p, l :: q => (b.rows[k]?).bind fun row => (find row l).bind fun c => entryM d c p q
  | _, _, _, _ => none

/-- The position a multi-index means in a container with `d` levels of blocks around blocks of size `n`: the last index is the outermost one. Blocks of
size 1 need no index; an index for them is ignored. -/
def address (n d : Nat) (ci : List Nat) : List Nat :=
  if n = 1 then ci.reverse.take d ++ [0] else ci.reverse

/-- The matrix has the row: it is one of all blocks in the row of blocks. -/
def HasRow {n m : Nat} : (d : Nat) → Mat K n m d → List Nat → Prop
  | 0, _, [k] => k < n
  | d + 1, b, k :: p => ∃ row, b.rows[k]? = some row ∧ ∀ x ∈ row, HasRow d x.2 p
  | _, _, _ => False

/-- A pattern with `d` levels of nesting everywhere. -/
def Depth : Nat → Shape → Prop
  | 0, .leaf _ _ => True
  | d + 1, .node rows cols sub => ∀ i < rows, ∀ j < cols, Depth d (sub i j)
  | _, _ => False

/-- `r` is a row of all blocks in its row of blocks. -/
def IsRow : Shape → List Nat → Prop
  | .leaf rows _, [i] => i < rows
  | .node rows cols sub, i :: r => i < rows ∧ ∀ j < cols, IsRow (sub i j) r
  | _, _ => False

/-- The links in the block `(i, j)`. -/
def inBlock (i j : Nat) (h : List (List Nat × List Nat)) : List (List Nat × List Nat) :=
  h.filterMap fun x => if x.1.head? = some i ∧ x.2.head? = some j then some (x.1.tail, x.2.tail) else none

/-- The entries of a matrix without nested blocks. -/
def links (h : List (List Nat × List Nat)) : Finset (Nat × Nat) :=
  (h.map fun x => (x.1.headD 0, x.2.headD 0)).toFinset

/-- The statistics for a set of entries: their number, the longest row, the number of those beyond the estimate for each row, the estimate and the number of rows. -/
def statsOf (rows estimate : Nat) (s : Finset (Nat × Nat)) : Stats where
  nnz := s.card
  longestRow := (Finset.range rows).sup fun i => (s.filter fun x => x.1 = i).card
  overflow := ∑ i ∈ Finset.range rows, ((s.filter fun x => x.1 = i).card - estimate)
  estimate := estimate
  rows := rows

/-- The statistics of all blocks, row by row. -/
def statistics : Shape → List (List Nat × List Nat) → List Stats
  | .leaf rows estimate, h => [statsOf rows estimate (links h)]
  | .node rows cols sub, h =>
    (List.range rows).flatMap fun i => (List.range cols).flatMap fun j => statistics (sub i j) (inBlock i j h)

end Verif.Istl
