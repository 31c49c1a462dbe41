import Verif.Model.SpaceLifecycle

/-!
# Specification of the life cycle of grid function spaces
-/

namespace Verif.SpaceLifecycle

mutual

/-- All spaces of a tree, with the information whether they are below an entity
blocked node. -/
def subspaces (below : Bool) : Space → List (Space × Bool)
  | .leaf l => [(.leaf l, below)]
  | .node i b cs => subspacesList (below || b) cs ++ [(.node i b cs, below)]

/-- The same for a list of trees. -/
def subspacesList (below : Bool) : List Space → List (Space × Bool)
  | [] => []
  | s :: ss => subspaces below s ++ subspacesList below ss

end

/-- The dimension of a space on a grid: the sum of the numbers of degrees of
freedom of its leaves. -/
def dimension {G : Type} (dofs : G → Nat → Nat) (g : G) (s : Space) : Nat :=
  (s.leaves.map fun l => dofs g l.fem).sum

/-- The space `j` belongs to the tree of space `s`. -/
def Contains (s : Space) (j : Nat) : Prop := ∃ t b, (t, b) ∈ subspaces false s ∧ t.id = j

/-- What a space reports to its users. -/
def reports {G : Type} (st : State G) (j : Nat) : Report × Report × Report :=
  (size st j, globalSize st j, reportedMaxLocalSize st j)

/-- The leaves below an entity blocked node of the tree have the same entity set. -/
def OneEntitySet (s : Space) : Prop :=
  ∀ i cs b, (Space.node i true cs, b) ∈ subspaces false s →
    ∀ l ∈ leavesList cs, ∀ l' ∈ leavesList cs, l.es = l'.es

/-- Copies are made of spaces only as long as these have not been updated and
their ordering has not been used. -/
def CopiesFresh {G : Type} (dofs : G → Nat → Nat) (st : State G) (h : List (Event G)) : Prop :=
  ∀ pre i post, h = pre ++ .copy i :: post → ((run dofs st pre).data i).ordering = none

end Verif.SpaceLifecycle
