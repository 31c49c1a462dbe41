import Verif.Model.Vtk
import Mathlib.Algebra.BigOperators.Group.Finset.Basic

/-!
# Specification of the output to VTK files
-/

set_option linter.unusedSectionVars false

namespace Verif.Vtk

variable {Cell Pt K : Type} [Ring K]

/-- The value of component `c` of a finite element function at a point of a
cell: the sum of the products of the coefficients and the shape functions. -/
def leafValue (w : World Cell Pt K) (l : Nat) (c : Nat) (cell : Cell) (pt : Pt) : K :=
  ∑ i ∈ Finset.range (w.dofs cell l).length,
    w.x ((w.dofs cell l).getD i 0) * (w.basis cell l pt).getD i (fun _ => 0) c

/-- The value of a component of a registered function.  Component `k` of a
function for a vector space is the function of its component `k`. -/
def value (w : World Cell Pt K) (f : Function) (c : Nat) (cell : Cell) (pt : Pt) : K :=
  match f with
  | .leaf l _ => leafValue w l c cell pt
  | .vector ls =>
    match ls[c]? with
    | some l => leafValue w l 0 cell pt
    | none => 0

/-- The number of components of a registered function: those of the shape
functions of a leaf, and one for each component of a vector space. -/
def numComponents : Function → Nat
  | .leaf _ n => n
  | .vector ls => ls.length

/-- The state of grid, space and vector after a history. -/
def worldAfter (w : World Cell Pt K) : List (Event Cell Pt K) → World Cell Pt K
  | [] => w
  | .change w' :: es => worldAfter w' es
  | .eval .. :: es => worldAfter w es

/-- Whether an event is a change. -/
def Event.IsChange : Event Cell Pt K → Prop
  | .change _ => True
  | .eval .. => False

/-- The numbers of the cells are distinct, and smaller than the largest number of
their type. -/
def Numbered (noCell : Nat) (w : World Cell Pt K) : Prop :=
  Function.Injective w.index ∧ ∀ c, w.index c < noCell

/-- After each change the first evaluation takes place on a cell with another
number than the one of the evaluation before the change. -/
def MovesOn (w : World Cell Pt K) (h : List (Event Cell Pt K)) : Prop :=
  ∀ pre f₁ r₁ k₁ c₁ p₁ mid f₂ r₂ k₂ c₂ p₂ post,
    h = pre ++ .eval f₁ r₁ k₁ c₁ p₁ :: (mid ++ .eval f₂ r₂ k₂ c₂ p₂ :: post) →
    mid ≠ [] → (∀ e ∈ mid, e.IsChange) →
    (worldAfter w pre).index c₁ ≠ (worldAfter w (pre ++ .eval f₁ r₁ k₁ c₁ p₁ :: mid)).index c₂

/-- The values a writer is entitled to: each evaluation of a component gets the
value, at that time, of the component of the function to which the map leads. -/
def expected (w : World Cell Pt K) : List (Event Cell Pt K) → List (Option K)
  | [] => []
  | .change w' :: es => expected w' es
  | .eval f remap comp cell pt :: es =>
    (remap[comp]?.bind fun c =>
      if c < numComponents f then some (value w f c cell pt) else none) :: expected w es

/-! ## The registered functions -/

/-- The node of a tree at a path. -/
def nodeAt : Space → Path → Option Space
  | s, [] => some s
  | .leaf .., _ :: _ => none
  | .vector _ _ _ cs, i :: p => cs[i]?.bind fun s => nodeAt s p
  | .inner _ cs, i :: p => cs[i]?.bind fun s => nodeAt s p

/-- The node is a vector space. -/
def Space.IsVector : Space → Prop
  | .vector .. => True
  | _ => False

/-- The name and the kind of the data of a leaf or a vector space on the grid
view of the writer. -/
def Space.component : Space → Option (Text × Kind)
  | .leaf n k true => some (n, k)
  | .vector n k true _ => some (n, k)
  | _ => none

/-- The tree has an output function at the path: a leaf or vector space on the
grid view of the writer which is not part of a vector space, and which the
predicate accepts. -/
def IsComponent (predicate : Path → Bool) (tree : Space) (p : Path) (name : Text) (kind : Kind) :
    Prop :=
  (∃ s, nodeAt tree p = some s ∧ s.component = some (name, kind)) ∧
  (∀ q r s, p = q ++ r → r ≠ [] → nodeAt tree q = some s → ¬ s.IsVector) ∧
  predicate p = true

/-- Lexicographic order of paths. -/
def pathLt : Path → Path → Prop
  | [], [] => False
  | [], _ :: _ => True
  | _ :: _, [] => False
  | a :: p, b :: q => a < b ∨ (a = b ∧ pathLt p q)

/-- The separator starts with a character which is not a digit. -/
def GoodSeparator : Text → Prop
  | [] => False
  | c :: _ => c.isDigit = false

end Verif.Vtk
