import Verif.Model.FunctionAdapters
/-
What adapters for functions should do.
-/
namespace Verif.FunctionAdapters.Spec

variable {E X Y : Type}

/-- The name of a leaf in a VTK file: the given text, followed by the numbers of the path. -/
def nameOf (s : List Char) (path : List Nat) : List Char := s ++ path.flatMap fun a => '_' :: Nat.toDigits 10 a

/-- The search gives an element whose geometry maps the local coordinate of the point to the point. -/
def FindsPoint (g : Geometry E X Y) (findEntity : Y → Option E) (y : Y) : Prop :=
  ∃ e, findEntity y = some e ∧ g.toGlobal e (g.toLocal e y) = y

/-- A point is in the interior of element `e`: no other element contains it; local coordinates are recovered. -/
def Interior (g : Geometry E X Y) (findEntity : Y → Option E) (e : E) (x : X) : Prop :=
  findEntity (g.toGlobal e x) = some e ∧ g.toLocal e (g.toGlobal e x) = x

end Verif.FunctionAdapters.Spec
