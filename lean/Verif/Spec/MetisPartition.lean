import Verif.Model.MetisPartition
/-
Specification of partitions with METIS.
-/
namespace Verif.MetisPartition.Spec

/-- The elements of part `k`, in the order of the entity set. -/
def patchOf {α : Type} (elements : List α) (part : List Nat) (k : Nat) : List α :=
  ((elements.zip part).filter fun q => q.2 = k).map Prod.fst

/-- The nodes of element `i` in a mesh in the format of METIS: `eptr[i] … eptr[i+1]-1` are the positions of its nodes in `eind`. -/
def nodesOf (m : Mesh) (i : Nat) : List Nat := (m.nodes.drop (m.cells.getD i 0)).take (m.cells.getD (i + 1) 0 - m.cells.getD i 0)

/-- METIS regards two elements as adjacent if they have at least `ncommonnodes` nodes in common. -/
def Adjacent (m : Mesh) (i j : Nat) : Prop := m.ncommonnodes ≤ ((nodesOf m i).filter fun v => v ∈ nodesOf m j).length

/-- An answer of METIS: a part for each element. -/
def ValidAnswer (patches n : Nat) (part : List Nat) : Prop := part.length = n ∧ ∀ k ∈ part, k < patches

end Verif.MetisPartition.Spec
