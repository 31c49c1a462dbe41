import Verif.Spec.IstlAccess
import Verif.Model.BlockDiagonal
/-
The diagonal blocks of a matrix as families of numbers: an entry is given by the position of its row in all levels and by its column in the block.
-/
namespace Verif.BlockDiagonal

open Istl

variable {K : Type} {n m : Nat}

/-- The entry in column `l` of the row at position `p`. -/
def entryD (d : Nat) (D : Diag K n m d) (p : List Nat) (l : Nat) : Option K :=
  (entryV d D p).bind fun r => if h : l < m then some (r ⟨l, h⟩) else none

/-- Every diagonal block, in every level of diagonal blocks, is in the pattern of the matrix. -/
def HasDiagonal : (d : Nat) → Mat K n m d → Prop
  | 0, _ => True
  | d + 1, b => ∀ (i : Nat) row, b.rows[i]? = some row → ∃ c, find row i = some c ∧ HasDiagonal d c

/-- The position with the last index replaced: another row of the same block. -/
def sibling (p : List Nat) (l : Nat) : List Nat := p.dropLast ++ [l]

/-- The vector has a block for every block of the diagonal. -/
def Covers {n' : Nat} : (d : Nat) → Diag K n m d → Vec K n' d → Prop
  | 0, _, _ => True
  | d + 1, b, x => ∀ (i : Nat) c, b.blocks[i]? = some c → ∃ c', x.blocks[i]? = some c' ∧ Covers d c c'

/-- The multi-index names a row of the diagonal. -/
def IsRowOf (d : Nat) (D : Diag K n m d) (ci : List Nat) : Prop :=
  ci.length = (if n = 1 then d else d + 1) ∧ (entryV d D (address n d ci)).isSome

end Verif.BlockDiagonal
