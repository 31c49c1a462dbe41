import Verif.Model.IndexRoutes
import Verif.Spec.GridViewOrdering
/-! Specification for the routes from DOF indices to container indices. -/
namespace Verif.IndexRoutes
open LeafOrdering (Leaf)
open GridViewOrdering (Local GVO)

/-- The paths of child numbers from the root to the leaves of the tree of spaces, in the order of a traversal; orderings
without a space of their own (decorators, grid view orderings) do not contribute. -/
def localPaths : Local → List (List Nat)
  | .leaf _ => [[]]
  | .node _ _ n child => (List.range n).flatMap fun c => (localPaths (child c)).map (c :: ·)

def Tree.paths : Tree → List (List Nat)
  | .direct _ => [[]]
  | .loc l => localPaths l
  | .gridView g => localPaths g.loc
  | .lex _ _ n child => (List.range n).flatMap fun c => (child c).paths.map (c :: ·)
  | .inter _ _ n child => (List.range n).flatMap fun c => (child c).paths.map (c :: ·)
  | .chunked _ child => child.paths
  | .permuted _ child => child.paths

/-- A DOF of a leaf: geometry type, entity, number. -/
abbrev LeafDof := Nat × Nat × Nat

/-- The DOF indices of a local function space: leaf by leaf, the path of the leaf (below the path `pre` of the subspace)
followed by the number of the DOF. -/
def dofs (pre : List Nat) (LL : List (List Nat × List LeafDof)) : List DI :=
  LL.flatMap fun x => x.2.map fun y => ⟨y.1, y.2.1, pre ++ (x.1 ++ [y.2.2])⟩

/-- Sizes of the leaves. -/
def groupSizes (LL : List (List Nat × List LeafDof)) : List Nat := LL.map fun x => x.2.length

/-- `(t,e,p)` is a DOF: the path leads to a leaf and the number is below the size of the leaf on the entity. -/
def LocalIsDof : Local → Nat → Nat → List Nat → Prop
  | .leaf a, t, e, p => ∃ i s, p = [i] ∧ (Local.leaf a).size t e = some s ∧ i < s
  | .node _ _ n child, t, e, p => ∃ c q, p = c :: q ∧ c < n ∧ LocalIsDof (child c) t e q

def Tree.IsDof : Tree → Nat → Nat → List Nat → Prop
  | .direct l, t, e, p => ∃ i s, p = [i] ∧ l.entitySize t e = some s ∧ i < s
  | .loc l, t, e, p => LocalIsDof l t e p
  | .gridView g, t, e, p => LocalIsDof g.loc t e p
  | .lex _ _ n child, t, e, p => ∃ c q, p = c :: q ∧ c < n ∧ (child c).IsDof t e q
  | .inter _ _ n child, t, e, p => ∃ c q, p = c :: q ∧ c < n ∧ (child c).IsDof t e q
  | .chunked _ child, t, e, p => child.IsDof t e p
  | .permuted _ child, t, e, p => child.IsDof t e p

/-- The update of the local orderings ran into no undefined behaviour. -/
def LocalBuilt : Local → Prop
  | .leaf a => a.isSome
  | .node _ a n child => a.isSome ∧ ∀ c, c < n → LocalBuilt (child c)

/-- The leaf orderings and grid view orderings in the tree are the result of an update for some grid and function space. -/
def Tree.Updated : Tree → Prop
  | .direct l => ∃ (g : LeafOrdering.Grid) (blocked : Bool) (fem : Option (Nat → Nat)), g.Valid ∧ g.update blocked fem = some l
  | .loc _ => False
  | .gridView g => ∃ (m : GridViewOrdering.Mesh) (s : GridViewOrdering.Space), s.Valid m ∧ GridViewOrdering.update m s = some g ∧
      LocalBuilt g.loc
  | .lex _ _ n child => ∀ c, c < n → (child c).Updated
  | .inter _ _ n child => ∀ c, c < n → (child c).Updated
  | .chunked _ child => child.Updated
  | .permuted _ child => child.Updated

/-- The DOFs of an entity: leaf by leaf, in the order of their numbers. `LS` lists the leaves with their sizes on the entity. -/
def entityDofs (LS : List (List Nat × Nat)) : List (List Nat) :=
  LS.flatMap fun x => (List.range x.2).map fun i => x.1 ++ [i]

end Verif.IndexRoutes
