import Verif.Model.Partition
/-
Specification of partitions for concurrent assembly.
-/
namespace Verif.Partition.Spec

/-- `e'` is reached from `e` across at most `d` intersections. -/
inductive Within (g : Grid) : Nat → Nat → Nat → Prop
  | here (d e) : Within g d e e
  | step {d e o e'} : o ∈ g.nbr e → Within g d o e' → Within g (d + 1) e e'

/-- The halo of a patch: the sub-entities of all elements within distance `d` of an element of the patch. -/
def InHalo (g : Grid) (d : Nat) (patch : List Nat) (s : Nat) : Prop := ∃ e ∈ patch, ∃ e', Within g d e e' ∧ s ∈ g.sub e'

/-- Two different patches (by number) of a list of patches share a sub-entity of their halos. -/
def Connected (g : Grid) (d : Nat) (patches : List (List Nat)) (i j : Nat) : Prop :=
  ∃ p q, patches[i]? = some p ∧ patches[j]? = some q ∧ ∃ s, InHalo g d p s ∧ InHalo g d q s

/-- Symmetric graphs with vertices `0,…,size-1`, each neighbour listed once. -/
structure Symmetric (g : Graph) : Prop where
  lt : ∀ v, ∀ w ∈ g.row v, v < g.size ∧ w < g.size
  symm : ∀ v w, w ∈ g.row v → v ∈ g.row w
  nodup : ∀ v, (g.row v).Nodup

/-- Number of neighbours different from the vertex itself. -/
def degree (g : Graph) (v : Nat) : Nat := ((g.row v).filter (· ≠ v)).length

end Verif.Partition.Spec
