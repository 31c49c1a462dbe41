import Verif.Model.ConstraintsAssembly
import Verif.Spec.Constraints
/-
Vocabulary for the properties of the assembly of constraints.
-/
namespace Verif.ConsAsm.Spec

open GridAssembler Constraints

/-- The constraints classes of the library that only set Dirichlet constraints. -/
inductive Class where
  | none
  | conforming
  | overlapping
  | nonoverlapping (offsets : List Nat) (ghosts : List Bool)
  | p0
  | p0Ghost
  | rt0
  | interiorNode (interior : List Bool)

/-- The object of that class. -/
def Class.cons {D F : Type} [DecidableEq D] : Class → Cons D F
  | .none => noConstraints
  | .conforming => conformingDirichlet
  | .overlapping => overlappingConformingDirichlet
  | .nonoverlapping offsets ghosts => nonoverlappingConformingDirichlet offsets ghosts
  | .p0 => p0Parallel
  | .p0Ghost => p0ParallelGhost
  | .rt0 => ConsAsm.rt0
  | .interiorNode interior => ConsAsm.interiorNode interior

/-- A degree of freedom with the local key `key` is attached to a face, or to an edge or vertex of it. -/
def OnFace (e : Elem) (face : Nat) (key : LocalKey) : Prop := key.codim ≠ 0 ∧ key.subEntity ∈ e.faceSub face key.codim

/-- It is attached to a part of a boundary face at which the Dirichlet condition holds. -/
def OnDirichletFace (ap : Bool) (p : Param) (e : Elem) (key : LocalKey) : Prop :=
  ∃ i ∈ e.isects, classify ap i.toIsect = .boundary ∧ p.isDirichlet e i = true ∧ OnFace e i.indexInInside key

/-- It is attached to a part of a processor boundary. -/
def OnProcessorFace (ap : Bool) (e : Elem) (key : LocalKey) : Prop :=
  ∃ i ∈ e.isects, classify ap i.toIsect = .processor ∧ OnFace e i.indexInInside key

/-- The degree of freedom `n` of the element `e`, with the local key `key`, is to be constrained. -/
def Class.Marks (ap : Bool) (p : Param) (e : Elem) (n : Nat) (key : LocalKey) : Class → Prop
  | .none => False
  | .conforming => OnDirichletFace ap p e key
  | .overlapping => OnDirichletFace ap p e key ∨ OnProcessorFace ap e key
  | .nonoverlapping offsets ghosts => OnDirichletFace ap p e key ∨ (e.partition ≠ .interior ∧
      ghosts.getD (offsets.getD (e.sub key.codim key.subEntity).1 0 + (e.sub key.codim key.subEntity).2) false = true)
  | .p0 => ∃ i ∈ e.isects, classify ap i.toIsect = .processor
  | .p0Ghost => e.partition = .ghost
  | .rt0 => ∃ i ∈ e.isects, classify ap i.toIsect = .boundary ∧ p.isNeumann e i = true ∧ i.indexInInside = n
  | .interiorNode interior => interior.getD (e.sub key.codim key.subEntity).2 false = true

/-- The entity is a subentity of the element. -/
def HasSub (e : Elem) (codim : Nat) (ent : Nat × Nat) : Prop := ∃ s < e.numSub codim, e.sub codim s = ent

/-- The entity lies in the closure of the face. -/
def InFace (e : Elem) (face codim : Nat) (ent : Nat × Nat) : Prop := ∃ s ∈ e.faceSub face codim, e.sub codim s = ent

/-- A leaf space whose degrees of freedom are attached to entities: a DOF is named by the leaf, the codimension, the entity and
the number on the entity; whenever an entity with a certain DOF is a subentity of an element, the element's finite element has
that DOF. -/
structure EntityDofs {F : Type} (elements : List Elem) (l : Leaf (Nat × Nat × (Nat × Nat) × Nat) F) : Prop where
  name : ∀ e ∈ elements, ∀ i key, (l.keys e)[i]? = some key →
    l.dof e i = (l.no, key.codim, e.sub key.codim key.subEntity, key.index)
  shared : ∀ e ∈ elements, ∀ key ∈ l.keys e, ∀ e' ∈ elements, ∀ s < e'.numSub key.codim,
    e'.sub key.codim s = e.sub key.codim key.subEntity → (⟨s, key.codim, key.index⟩ : LocalKey) ∈ l.keys e'

/-- The reference elements are consistent: the subentities of a face are subentities of the element. -/
def ProperFaces (elements : List Elem) : Prop :=
  ∀ e ∈ elements, ∀ i ∈ e.isects, ∀ codim, ∀ s ∈ e.faceSub i.indexInInside codim, s < e.numSub codim

mutual
/-- The paths to the leaves of a tree, in order. -/
def paths {α : Type} : Tree α → List (List Nat)
  | .leaf _ => [[]]
  | .node ts => pathsList 0 ts
/-- The paths to the leaves below all children, the first of which has the number `k`. -/
def pathsList {α : Type} : Nat → List (Tree α) → List (List Nat)
  | _, [] => []
  | k, t :: ts => (paths t).map (k :: ·) ++ pathsList (k + 1) ts
end

/-- The leaf found by following a path from the root: the walk stops when it has reached a leaf. -/
def lookup {α : Type} : Tree α → List Nat → Option α
  | .leaf a, _ => some a
  | .node _, [] => none
  | .node ts, k :: path => match ts[k]? with
    | some t => lookup t path
    | none => none

end Verif.ConsAsm.Spec
