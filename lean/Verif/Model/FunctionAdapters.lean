import Verif.Model.FunctionTree
import Mathlib.Algebra.Ring.Defs
/-
Model of adapters for functions.

Source: /repo/dune/pdelab/common/function.hh, common/functionwrappers.hh, function/callableadapter.hh, function/bindtime.hh.

Simplifications: a function is what its `evaluate` computes; output arguments are results. `X` are local and `Y` global coordinates, `E` are elements
and `I` intersections, and `geometry` are the maps of their geometries.
-/
namespace Verif.FunctionAdapters

variable {E I X Y R K T D : Type}

/-- `geometry().global` and `geometry().local` of the elements. Used for `analyticGridFunction`, function.hh:668-673. -/
structure Geometry (E X Y : Type) where
  toGlobal : E → X → Y
  toLocal : E → Y → X

/-- function.hh:668-673 (`AnalyticGridFunctionBase::evaluate`). -/
def analyticGridFunction (g : Geometry E X Y) (evaluateGlobal : Y → R) (e : E) (x : X) : R := evaluateGlobal (g.toGlobal e x)

/-- function.hh:915-920 (`FunctionToGridFunctionAdapter::evaluate`). -/
def functionToGridFunction (g : Geometry E X Y) (t : Y → R) (e : E) (x : X) : R := t (g.toGlobal e x)

/-- function.hh:974-980 (`GridFunctionToFunctionAdapter::evaluate`): `findEntity` is the search of an element containing a point; `none` is the
exception it throws if there is none. -/
def gridFunctionToFunction (g : Geometry E X Y) (findEntity : Y → Option E) (gf : E → X → R) (x : Y) : Option R :=
  match findEntity x with
  | none => none
  | some e => some (gf e (g.toLocal e x))

/-- function.hh:1014-1018 (`GlobalFunctionToLocalFunctionAdapter::evaluate`). -/
def globalFunctionToLocalFunction (g : Geometry E X Y) (t : Y → R) (e : E) (x : X) : R := t (g.toGlobal e x)

/-- function.hh:1052-1056 (`GridFunctionToLocalFunctionAdapter::evaluate`). -/
def gridFunctionToLocalFunction (t : E → X → R) (e : E) (x : X) : R := t e x

/-- callableadapter.hh:42-48 and 215-221. -/
def globalCallable (g : Geometry E X Y) (f : Y → R) (e : E) (xl : X) : R :=
  let xg := g.toGlobal e xl
  f xg

/-- callableadapter.hh:92-97 and 251-256. -/
def localCallable (f : E → X → R) (e : E) (xl : X) : R := f e xl

/-- function.hh:1065-1097  `SelectComponentAdapter`, with `select`. -/
structure Selected (D R : Type) where
  t : D → List R
  k : Nat

/-- function.hh:1080-1086 (and 1122-1130 for functions on the boundary); `none`: there is no such component. -/
def Selected.evaluate (a : Selected D R) (x : D) : Option R :=
  let y := a.t x
  y[a.k]?

/-- function.hh:1089-1092. -/
def Selected.select (a : Selected D R) (k : Nat) : Selected D R := { a with k := k }

/-- functionwrappers.hh:54-79  the recursion that evaluates the functions `I, I+1, ...`. -/
def evaluateAll (storage : List (E → X → R)) (e : E) (x : X) : Nat → Nat → List R → List R
  | _, 0, y => y
  | i, n + 1, y =>
    match storage[i]? with
    | none => y
    | some f => evaluateAll storage e x (i + 1) n (y.set i (f e x))

/-- functionwrappers.hh:98-110  `PointwiseGridFunctionAdapter::evaluate`; `zero` is the value of an entry of the new vector. -/
def pointwise (engine : List R → Option R) (zero : R) (storage : List (E → X → R)) (e : E) (x : X) : Option R :=
  engine (evaluateAll storage e x 0 storage.length (List.replicate storage.length zero))

/-- functionwrappers.hh:175-181  `PointwiseScaleAdapterEngine::evaluate`; values are vectors, `none` is a failed assertion. -/
def scaleEngine [CommRing K] (scale : K) (input : List (Fin n → K)) : Option (Fin n → K) :=
  if input.length = 1 then input[0]?.map fun v i => v i * scale else none

/-- functionwrappers.hh:204-210  the loop of `PointwiseSumAdapterEngine::evaluate`. -/
def sumLoop [CommRing K] (input : List (Fin n → K)) : Nat → Nat → (Fin n → K) → (Fin n → K)
  | _, 0, out => out
  | i, m + 1, out =>
    match input[i]? with
    | none => out
    | some v => sumLoop input (i + 1) m (fun j => out j + v j)

/-- functionwrappers.hh:204-210. -/
def sumEngine [CommRing K] (input : List (Fin n → K)) : Option (Fin n → K) := some (sumLoop input 0 input.length fun _ => 0)

/-- callableadapter.hh:371-378  `GlobalCallableToBoundaryConditionAdapter::isDirichlet`. -/
def globalIsDirichlet (g : Geometry I X Y) (f : Y → Bool) (intersection : I) (coord : X) : Bool :=
  let xg := g.toGlobal intersection coord
  f xg

/-- callableadapter.hh:380-386. -/
def globalIsNeumann (g : Geometry I X Y) (f : Y → Bool) (intersection : I) (coord : X) : Bool := !globalIsDirichlet g f intersection coord

/-- callableadapter.hh:404-409  `LocalCallableToBoundaryConditionAdapter::isDirichlet`. -/
def localIsDirichlet (f : I → X → Bool) (intersection : I) (coord : X) : Bool := f intersection coord

/-- callableadapter.hh:411-417. -/
def localIsNeumann (f : I → X → Bool) (intersection : I) (coord : X) : Bool := !localIsDirichlet f intersection coord

/-- bindtime.hh:11-41  `SetTimeWrapper`; `none` as time: the member is not initialised. -/
structure TimeWrapper (T : Type) where
  t : Option T
  /-- The number of the placeholder is one (otherwise two). -/
  first : Bool

/-- bindtime.hh:15-17 and 43-48. -/
def bindTime (T : Type) (first : Bool) : TimeWrapper T := ⟨none, first⟩

/-- bindtime.hh:23-26. -/
def TimeWrapper.setTime (w : TimeWrapper T) (t : T) : TimeWrapper T := { w with t := some t }

/-- A callable with two arguments: either of them can be the time. Used for `TimeWrapper.apply`, bindtime.hh:18-22 and 31-40. -/
structure Callable (T D R : Type) where
  timeFirst : T → D → R
  timeSecond : D → T → R

/-- bindtime.hh:18-22 and 31-40; `none`: the time is not defined. -/
def TimeWrapper.apply (w : TimeWrapper T) (f : Callable T D R) (d : D) : Option R :=
  w.t.map fun t => if w.first then f.timeFirst t d else f.timeSecond d t

/-- function.hh:850-853  the name of a leaf of a function tree in a VTK file. -/
def vtkName (s : List Char) (treePath : List Nat) : List Char :=
  (List.range treePath.length).foldl (fun name i => name ++ ['_'] ++ Nat.toDigits 10 (treePath.getD i 0)) s

mutual

/-- function.hh:848-870  `vtkwriter_tree_addvertexdata`: the names and leaf functions that are added to the writer. -/
def addVertexData (s : List Char) : FunctionTree.Tree → List Nat → List (List Char × Nat)
  | .leaf i, p => [(vtkName s p, i)]
  | .node cs, p => addVertexDataList s cs p 0

/-- The children of a node, from number `c` on. Used for `addVertexData`, function.hh:848-870. -/
def addVertexDataList (s : List Char) : List FunctionTree.Tree → List Nat → Nat → List (List Char × Nat)
  | [], _, _ => []
  | t :: ts, p, c => addVertexData s t (p ++ [c]) ++ addVertexDataList s ts p (c + 1)

end

end Verif.FunctionAdapters
