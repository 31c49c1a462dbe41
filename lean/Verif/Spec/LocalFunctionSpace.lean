import Verif.Model.LocalFunctionSpace
/-
What a user expects of a bound local function space.
-/
namespace Verif.Lfs
open LeafOrdering (Key)

/-- The number of shape functions a leaf contributes on the element. -/
def leafSize (fast inSet : Bool) (maxSize basisSize : Nat) : Nat :=
  match inSet, fast with
  | false, _ => 0
  | true, true => maxSize
  | true, false => basisSize

/-- The number of DOFs below a node: the sum over its leaves. -/
def Space.dofs (fast : Bool) : Space → Nat
  | .leaf inSet maxSize basisSize _ _ => leafSize fast inSet maxSize basisSize
  | .node k child => ((List.range k).map fun i => (child i).dofs fast).sum

/-- The finite elements are well-formed: as many local keys as shape functions. -/
inductive WellFormed : Space → Prop
  | leaf (inSet maxSize basisSize elem) (keys : List Key) (h : keys.length = basisSize) :
      WellFormed (.leaf inSet maxSize basisSize elem keys)
  | node (k child) (h : ∀ i, i < k → WellFormed (child i)) : WellFormed (.node k child)

end Verif.Lfs
