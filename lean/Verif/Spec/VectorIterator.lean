import Verif.Model.VectorIterator
/-
Specification of the entries of nested vectors.
-/
namespace Verif.VectorIterator.Spec

variable {α : Type}

/-- The entry with a given index path. -/
def entry : Vec α → List Nat → Option α
  | .one x, [0] => some x
  | .leaf xs, [i] => xs[i]?
  | .block bs, i :: p =>
    match bs[i]? with
    | none => none
    | some b => entry b p
  | _, _ => none
termination_by _ p => p.length

/-- Lexicographic order of index paths. -/
def lexLt : List Nat → List Nat → Prop
  | i :: p, j :: q => i < j ∨ (i = j ∧ lexLt p q)
  | _, _ => False

end Verif.VectorIterator.Spec
