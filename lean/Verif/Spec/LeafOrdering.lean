import Verif.Model.LeafOrdering
/-! Specification for leaf orderings: how many DOFs an entity has, and what a good numbering is. -/
namespace Verif.LeafOrdering

/-- Number of DOFs that the finite elements of the given cells attach to entity `e` of type `t`: one more
than the largest local index (0 if there is none). -/
def dofCount (cells : List (List Key)) (t e : Nat) : Nat :=
  ((cells.flatten.filter fun k => k.gt == t && k.entity == e).map fun k => k.index + 1).foldr max 0

/-- Keys refer to existing entities. -/
def Grid.Valid (g : Grid) : Prop :=
  ∀ c ∈ g.cells, ∀ k ∈ c, k.gt < g.types ∧ k.entity < g.count k.gt

/-- `(t,e,i)` is a DOF if the entity exists and has more than `i` DOFs. -/
def IsDof (g : Grid) (n : Nat → Nat → Nat) (t e i : Nat) : Prop := t < g.types ∧ e < g.count t ∧ i < n t e

/-- The numbering `m` gives every entity a contiguous range of flat indices below `size`, `n t e` long;
the ranges are disjoint and cover `0..size-1`. -/
def ContiguousNumbering (g : Grid) (n : Nat → Nat → Nat) (size : Nat)
    (m : Nat → Nat → Nat → Option (List Nat)) : Prop :=
  ∃ base : Nat → Nat → Nat,
    (∀ t e i, IsDof g n t e i → m t e i = some [base t e + i] ∧ base t e + i < size) ∧
    (∀ t e i t' e' i', IsDof g n t e i → IsDof g n t' e' i' → base t e + i = base t' e' + i' →
      t = t' ∧ e = e' ∧ i = i') ∧
    (∀ k, k < size → ∃ t e i, IsDof g n t e i ∧ base t e + i = k)

/-- Sub-entities (type, index) of every cell. -/
abbrev Subs := List (List (Nat × Nat))

/-- The situation for which the automatic detection of a fixed size is right: `subs` lists the sub-entities
of every cell, keys sit on sub-entities of the cell, every entity of the grid is a sub-entity of some
cell, the cells agree on the number of DOFs of a shared entity, and all sub-entities of one type of a
cell have the same number of DOFs. -/
structure Uniform (g : Grid) (subs : Subs) : Prop where
  len : subs.length = g.cells.length
  keys : ∀ (i : Nat) (c : List Key) (s : List (Nat × Nat)), g.cells[i]? = some c → subs[i]? = some s → ∀ k : Key, k ∈ c → (k.gt, k.entity) ∈ s
  cover : ∀ t e, t < g.types → e < g.count t → ∃ s ∈ subs, (t, e) ∈ s
  conforming : ∀ (i : Nat) (c : List Key) (s : List (Nat × Nat)), g.cells[i]? = some c → subs[i]? = some s → ∀ t e, (t, e) ∈ s →
    dofCount [c] t e = dofCount g.cells t e
  uniform : ∀ s ∈ subs, ∀ t e e', (t, e) ∈ s → (t, e') ∈ s → dofCount g.cells t e = dofCount g.cells t e'

end Verif.LeafOrdering
