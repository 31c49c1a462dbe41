import Verif.Model.MultiIndex
/-
Multi-indices as lists.
-/
namespace Verif.MIndex

/-- The entries a user sees, front first. -/
def MI.list (m : MI) : List Nat := m.cells.take m.sz

/-- The entries of a view. -/
def View.list (v : View) : List Nat := v.mi.cells.take v.size

/-- The multi-index has at most as many entries as its capacity. -/
def MI.Ok (m : MI) : Prop := m.sz ≤ m.capacity

/-- A view does not look past the end of its multi-index. -/
def View.Ok (v : View) : Prop := v.size ≤ v.mi.sz ∧ v.mi.Ok

/-- The result of an operation on multi-indices is the multi-index of the same capacity with the given entries. -/
def Gives (r : Option MI) (capacity : Nat) (l : List Nat) : Prop :=
  ∃ m, r = some m ∧ m.Ok ∧ m.capacity = capacity ∧ m.list = l

end Verif.MIndex
