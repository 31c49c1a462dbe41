import Verif.Model.GridViewOrdering
import Verif.Spec.LeafOrdering
/-! Specification for entity-wise orderings: the DOFs of a tree of function spaces and what a good numbering of
them is. -/
namespace Verif.GridViewOrdering
open LeafOrdering (Key Grid Uniform dofCount)

/-- Number of DOFs of a leaf space on entity `e` of type `t`. -/
def leafDofs (fem : Option (Nat → Nat)) (cells : List (List Key)) (t e : Nat) : Nat :=
  match fem with
  | some s => s t
  | none => dofCount cells t e

/-- Number of DOFs of a space on an entity. -/
def Space.total : Space → Nat → Nat → Nat
  | .leaf fem cells, t, e => leafDofs fem cells t e
  | .node _ n child, t, e => ((List.range n).map fun c => (child c).total t e).sum

/-- `p` is the tree index of a DOF of the space on an entity. -/
def Space.IsDof : Space → Nat → Nat → List Nat → Prop
  | .leaf fem cells, t, e, p => ∃ i, p = [i] ∧ i < leafDofs fem cells t e
  | .node _ n child, t, e, p => ∃ c q, p = c :: q ∧ c < n ∧ (child c).IsDof t e q

/-- `(t,e,p)` is a DOF on an existing entity. -/
def Dof (m : Mesh) (s : Space) (t e : Nat) (p : List Nat) : Prop :=
  t < m.types ∧ e < m.count t ∧ s.IsDof t e p

/-- Inner nodes have children, keys refer to existing entities. -/
def Space.Valid (m : Mesh) : Space → Prop
  | .leaf _ cells => (⟨m.types, m.count, cells⟩ : Grid).Valid
  | .node _ n child => 0 < n ∧ ∀ c, c < n → (child c).Valid m

/-- A leaf space for which the sizes found by the ordering are right: the finite element map has a fixed
size, or all sub-entities of one type of a cell have the same number of DOFs, or the ordering works with
sizes per entity. -/
def Space.LeavesOk (m : Mesh) : Space → Prop
  | .leaf (some _) _ => True
  | .leaf none cells => (∃ subs, Uniform ⟨m.types, m.count, cells⟩ subs) ∨
      ((Space.leaf none cells).localOrdering m).fixed = false
  | .node _ n child => ∀ c, c < n → (child c).LeavesOk m

/-- No inner node is blocked by the container. -/
def Space.Flat : Space → Prop
  | .leaf _ _ => True
  | .node b n child => b = false ∧ ∀ c, c < n → (child c).Flat

/-- No inner node except possibly the root is blocked by the container. -/
def Space.InnerFlat : Space → Prop
  | .leaf _ _ => True
  | .node _ n child => ∀ c, c < n → (child c).Flat

/-- On the entity `(t,e)`, blocked inner nodes have DOFs in all of their children or in none. -/
def Space.Dense (t e : Nat) : Space → Prop
  | .leaf _ _ => True
  | .node b n child => (b = true → (∀ c, c < n → 0 < (child c).total t e) ∨ ∀ c, c < n → (child c).total t e = 0) ∧
      ∀ c, c < n → (child c).Dense t e

/-- The same for all inner nodes except the root. -/
def Space.InnerDense (t e : Nat) : Space → Prop
  | .leaf _ _ => True
  | .node _ n child => ∀ c, c < n → (child c).Dense t e

/-- Total number of DOFs. -/
def dofTotal (m : Mesh) (s : Space) : Nat :=
  ((List.range m.types).map fun t => ((List.range (m.count t)).map fun e => s.total t e).sum).sum

/-- A flat numbering: the DOFs of an entity occupy a contiguous range, the ranges are disjoint and cover
`0..size-1`. -/
structure FlatNumbering (m : Mesh) (s : Space) (size : Nat) (map : Nat → Nat → List Nat → Option (List Nat)) : Prop where
  inj : ∀ t e p t' e' p', Dof m s t e p → Dof m s t' e' p' → map t e p = map t' e' p' → t = t' ∧ e = e' ∧ p = p'
  surj : ∀ k, k < size → ∃ t e p, Dof m s t e p ∧ map t e p = some [k]
  ranges : ∃ base : Nat → Nat → Nat, ∀ t e p, Dof m s t e p →
    ∃ j, j < s.total t e ∧ map t e p = some [base t e + j] ∧ base t e + j < size

/-- A numbering with one block per entity: entities with DOFs have different blocks, the blocks are
`0..blockCount-1`, the DOFs of an entity are the entries of its block, and `blockSize` reports the
number of entries. -/
structure BlockNumbering (m : Mesh) (s : Space) (blockCount : Nat) (blockSize : Nat → Option Nat)
    (map : Nat → Nat → List Nat → Option (List Nat)) : Prop where
  inj : ∀ t e p t' e' p', Dof m s t e p → Dof m s t' e' p' → map t e p = map t' e' p' → t = t' ∧ e = e' ∧ p = p'
  blocks : ∃ block : Nat → Nat → Nat,
    (∀ t e p, Dof m s t e p → block t e < blockCount ∧ blockSize (block t e) = some (s.total t e) ∧
      ∃ j, j < s.total t e ∧ map t e p = some [block t e, j]) ∧
    (∀ t e p t' e' p', Dof m s t e p → Dof m s t' e' p' → block t e = block t' e' → t = t' ∧ e = e') ∧
    (∀ b n j, b < blockCount → blockSize b = some n → j < n → ∃ t e p, Dof m s t e p ∧ map t e p = some [b, j]) ∧
    (∀ b, b < blockCount → ∃ t e p, Dof m s t e p ∧ block t e = b)

end Verif.GridViewOrdering
