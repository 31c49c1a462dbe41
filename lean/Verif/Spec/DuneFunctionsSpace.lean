import Verif.Model.DuneFunctionsSpace
/-
Specification of the grid function space made from a dune-functions basis (C201-C204).
-/
namespace Verif.DuneFunctionsSpace

/-- The local DOF is attached to the entity. -/
def LocalDof.On (d : LocalDof) (gt ent : Nat) : Prop := d.gt = gt ∧ d.ent = ent

/-- The index set of the grid view: entities have numbers below the number of entities of their type, and there is an entity of every type. -/
def Basis.Indexed (B : Basis) : Prop :=
  (∀ e ∈ B.elements, ∀ d ∈ e, d.ent < B.count d.gt) ∧ ∀ ts ∈ B.types, ∀ gt ∈ ts, 0 < B.count gt

/-- Elements that share an entity agree which basis function a local key belongs to. -/
def Basis.Consistent (B : Basis) : Prop :=
  ∀ e ∈ B.elements, ∀ d ∈ e, ∀ e' ∈ B.elements, ∀ d' ∈ e', d.gt = d'.gt → d.ent = d'.ent → d.k = d'.k → d.index = d'.index

/-- The local DOFs of the element on the entity. -/
def dofsOn (e : List LocalDof) (gt ent : Nat) : List LocalDof := e.filter fun d => d.gt == gt && d.ent == ent

/-- The element has no DOFs on the entity, or the indices of the local keys are 0, …, n-1, each once. -/
def Complete (e : List LocalDof) (gt ent n : Nat) : Prop :=
  dofsOn e gt ent = [] ∨ ((dofsOn e gt ent).map LocalDof.k).Perm (List.range n)

/-- What the finite element map has to answer: the finite element which the basis has at the time of the call. -/
def expectedAnswers {FE : Type} : (Element → FE) → List (FemEvent FE) → List FE
  | _, [] => []
  | fe, .find e :: evs => fe e :: expectedAnswers fe evs
  | _, .update fe :: evs => expectedAnswers fe evs

/-- The finite elements of a basis depend on the geometry type only. -/
def ByType {FE : Type} (fe : Element → FE) : Prop := ∀ e e' : Element, e.type = e'.type → fe e = fe e'

/-- The basis at the beginning and the bases after all updates are such bases. -/
def AllByType {FE : Type} (fe : Element → FE) (evs : List (FemEvent FE)) : Prop :=
  ByType fe ∧ ∀ fe' : Element → FE, FemEvent.update fe' ∈ evs → ByType fe'

end Verif.DuneFunctionsSpace
