import Verif.Model.EntitySet
/-
Vocabulary for the properties of entity sets, element mappers and border caches (C45, C46, C47, C83).
-/
namespace Verif.EntitySet.Spec

/-- `f` enumerates the elements with the property by the numbers below `n`. -/
structure Enumerates {A : Type} (p : A → Prop) (f : A → Option Nat) (n : Nat) : Prop where
  bounded : ∀ a, p a → ∃ k, k < n ∧ f a = some k
  injective : ∀ a b, p a → p b → f a = f b → a = b
  onto : ∀ k, k < n → ∃ a, p a ∧ f a = some k

/-- What a grid view guarantees: types of different codimensions have different numbers, ordered by dimension; the index set numbers the
entities of a type consecutively. -/
structure WF (g : Grid) : Prop where
  offsetZero : g.offset 0 = 0
  offsetTop : g.offset (g.dim + 1) = g.nTypes
  offsetMono : ∀ d, d ≤ g.dim → g.offset d ≤ g.offset (d + 1)
  typesNodup : ∀ c, c ≤ g.dim → (g.types c).Nodup
  typesRange : ∀ c, c ≤ g.dim → ∀ t ∈ g.types c, g.offset (g.dim - c) ≤ t ∧ t < g.offset (g.dim - c + 1)
  typesDim : ∀ c, c ≤ g.dim → ∀ t ∈ g.types c, g.dimOf t = g.dim - c
  entType : ∀ c, c ≤ g.dim → ∀ e ∈ g.entities c, e.gt ∈ g.types c
  entBound : ∀ c, c ≤ g.dim → ∀ e ∈ g.entities c, e.index < g.size e.gt
  entOnto : ∀ c, c ≤ g.dim → ∀ t ∈ g.types c, ∀ i, i < g.size t → ∃ e ∈ g.entities c, e.gt = t ∧ e.index = i
  entInj : ∀ c, c ≤ g.dim → ∀ e ∈ g.entities c, ∀ e' ∈ g.entities c, e.gt = e'.gt → e.index = e'.index → e = e'
  entNodup : ∀ c, c ≤ g.dim → (g.entities c).Nodup

/-- The entity belongs to the partitions and one of the codimensions. -/
def Member (g : Grid) (P : Part → Bool) (mask : Nat → Bool) (e : Ent) : Prop :=
  ∃ c, c ≤ g.dim ∧ mask c = true ∧ e ∈ g.entities c ∧ P e.part = true

/-- The entities of the partitions are exactly the sub-entities of the elements of the partitions. -/
structure Closed (g : Grid) (P : Part → Bool) : Prop where
  sub : ∀ el ∈ g.entities 0, P el.part = true → ∀ c, c ≤ g.dim → ∀ x ∈ g.sub el c, ∃ e ∈ g.entities c, (e.gt, e.index) = x ∧ P e.part = true
  covered : ∀ c, c ≤ g.dim → ∀ e ∈ g.entities c, P e.part = true →
    ∃ el ∈ g.entities 0, P el.part = true ∧ (e.gt, e.index) ∈ g.sub el c

/-- Global ids identify entities. -/
def UniqueIds (g : Grid) : Prop :=
  ∀ c, c ≤ g.dim → ∀ c', c' ≤ g.dim → ∀ e ∈ g.entities c, ∀ e' ∈ g.entities c', e.id = e'.id → e = e'

/-- What a user does to an entity set. The grid may change between any two operations. -/
inductive Op where
  | add (codim : Nat)
  | remove (codim : Nat)
  | reset
  | update (g : Grid) (force : Bool)

/-- One operation on an entity set of a grid of dimension `dim`, where `upd` is its `update`. -/
def step (dim : Nat) (upd : Grid → Bool → State → State) (s : State) : Op → State
  | .add c => addCodim dim c s
  | .remove c => removeCodim dim c s
  | .reset => reset s
  | .update g force => upd g force s

/-- A history of an entity set from its construction for some codimensions, with any content of arrays for `n` geometry types. -/
def run (dim : Nat) (upd : Grid → Bool → State → State) (codims : Nat → Bool) (offsets mapped : List Nat) (ops : List Op) : State :=
  ops.foldl (step dim upd) (State.construct codims offsets mapped)

/-- The grids of all updates. -/
def grids : List Op → List Grid
  | [] => []
  | .update g _ :: ops => g :: grids ops
  | _ :: ops => grids ops

/-- What an index set of the entities of some partitions and codimensions has to offer: the geometry types of every codimension, numbers
starting from zero for the entities of every type, the number of entities of every codimension and numbers for all entities, but no numbers
for other entities of the grid. -/
structure Numbered (g : Grid) (P : Part → Bool) (mask : Nat → Bool) (types : Nat → List Nat) (sizeOfType sizeOfCodim : Nat → Nat)
    (index uniqueIndex : Ent → Option Nat) : Prop where
  types : ∀ c, c ≤ g.dim → types c = if mask c then g.types c else []
  perType : ∀ t, t < g.nTypes → Enumerates (fun e => Member g P mask e ∧ e.gt = t) index (sizeOfType t)
  perCodim : ∀ c, c ≤ g.dim → sizeOfCodim c = if mask c then ((g.entities c).filter fun e => P e.part).length else 0
  unique : Enumerates (Member g P mask) uniqueIndex ((List.range (g.dim + 1)).map sizeOfCodim).sum
  others : ∀ c, c ≤ g.dim → ∀ e ∈ g.entities c, ¬ Member g P mask e → index e = none ∧ uniqueIndex e = none

/-- A border entity of a used codimension. -/
def Border (g : Grid) (used : Nat → Bool) (e : Ent) : Prop :=
  ∃ c, 1 ≤ c ∧ c ≤ g.dim ∧ used c = true ∧ e ∈ g.entities c ∧ e.part = .border

end Verif.EntitySet.Spec
