import Verif.Model.LoadBalance
/-
What load balancing is expected to do, and what it expects of the grid.
-/
namespace Verif.LoadBalance

variable {E I K : Type}

/-- The vector `v` of process `p` has, on all interior and border entities, the values of the function given by `val`: the
coefficients that belong to the entity with a given id. -/
def Carries (id : E → I) (dim : Nat) (s : Space E) (val : I → List K) (p : Nat) (v : Nat → K) : Prop :=
  ∀ c ≤ dim, s.hasDOFs c = true → ∀ e ∈ s.interiorBorder p c, (s.dofs p e).map v = val (id e)

/-- A degree of freedom of an interior or border entity. -/
def Covered (dim : Nat) (s : Space E) (p i : Nat) : Prop :=
  ∃ c ≤ dim, s.hasDOFs c = true ∧ ∃ e ∈ s.interiorBorder p c, i ∈ s.dofs p e

/-- Different entities have different degrees of freedom. -/
structure Numbered (dim : Nat) (s : Space E) (p : Nat) : Prop where
  nodup : ∀ c ≤ dim, ∀ e ∈ s.interiorBorder p c, (s.dofs p e).Nodup
  disjoint : ∀ c ≤ dim, ∀ c' ≤ dim, ∀ e ∈ s.interiorBorder p c, ∀ e' ∈ s.interiorBorder p c', e ≠ e' →
    ∀ i ∈ s.dofs p e, i ∉ s.dofs p e'

/-- What the grid does: entities of the entity set are sent only by processes of which they are interior or border entities; an entity
that is not in the entity set (e.g. one of a coarse level) does not have the id of an interior or border entity of the process that receives it; every
interior or border entity of a process was one before, or is sent by a process in whose entity set it is. -/
structure Delivers (id : E → I) (dim procs : Nat) (ts : List (Transfer E)) (old new : Space E) : Prop where
  sent : ∀ t ∈ ts, old.hasDOFs t.codim = true → old.contains t.src t.entity = true →
    t.src < procs ∧ t.codim ≤ dim ∧ t.entity ∈ old.interiorBorder t.src t.codim
  other : ∀ t ∈ ts, old.hasDOFs t.codim = true → old.contains t.src t.entity = false →
    ∀ c ≤ dim, new.hasDOFs c = true → ∀ e ∈ new.interiorBorder t.dst c, id e ≠ id t.entity
  complete : ∀ p < procs, ∀ c ≤ dim, new.hasDOFs c = true → ∀ e ∈ new.interiorBorder p c,
    (∃ c' ≤ dim, old.hasDOFs c' = true ∧ ∃ e' ∈ old.interiorBorder p c', id e' = id e) ∨
    ∃ t ∈ ts, t.dst = p ∧ id t.entity = id e ∧ old.hasDOFs t.codim = true ∧ old.contains t.src t.entity = true

end Verif.LoadBalance
