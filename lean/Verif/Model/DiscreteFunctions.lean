import Mathlib.LinearAlgebra.Matrix.NonsingularInverse
import Mathlib.Algebra.Order.Group.Abs
import Mathlib.Algebra.Field.Defs
/-
Model of the functions made of a grid function space and a vector of coefficients
(dune/pdelab/gridfunctionspace/gridfunctionspaceutilities.hh, dune/pdelab/function/discretegridviewfunction.hh), of the helpers for curls
and cross products (dune/pdelab/common/jacobiantocurl.hh, dune/pdelab/common/crossproduct.hh) and of the adapters for vector fields in
dune/pdelab/common/function.hh.

Access outside a container is the outcome `none`.
-/
namespace Verif.DiscreteFunctions

open Matrix

/-- A leaf of the local function space after it has been bound to an element: `size()`, `localIndex(i)` and the values and the Jacobians
of the local basis at a point (`evaluateFunction` and `evaluateJacobian` resize their output to the number of shape functions). The shape
functions have values in `V` and Jacobians in `J`. Used for `read`, backend/common/uncachedvectorview.hh:73-80. -/
structure Leaf (X V J : Type) where
  size : Nat
  localIndex : Nat → Nat
  function : X → List V
  jacobian : X → List J

/-- The matrix `geometry.jacobianInverseTransposed(x)`, whose type depends on the grid.
Used for `computeDerivative`, gridfunctionspaceutilities.hh:1047-1108. -/
inductive GeometryMatrix (K : Type) (d : Nat) where
  /-- `Dune::FieldMatrix` -/
  | field (m : Matrix (Fin d) (Fin d) K)
  /-- `Dune::DiagonalMatrix` -/
  | diagonal (v : Fin d → K)
  /-- any other type -/
  | other (m : Matrix (Fin d) (Fin d) K)

/-- An element with the local function space bound to it: the number of its degrees of freedom, where they are in the vector
(`lfs_cache.containerIndex(i)`), the leaves of the space in the order of the children, and the geometry.
Used for `read`, backend/common/uncachedvectorview.hh:73-80. -/
structure Element (I X V J K : Type) (d : Nat) where
  size : Nat
  containerIndex : Nat → I
  leaves : List (Leaf X V J)
  jacobianInverseTransposed : X → GeometryMatrix K d

variable {I X V J K : Type} [Field K] {d : Nat}

/-- The entries of the matrix. Used for `evaluateGradient`, gridfunctionspaceutilities.hh:551-585. -/
def GeometryMatrix.toMatrix : GeometryMatrix K d → Matrix (Fin d) (Fin d) K
  | .field m => m
  | .diagonal v => Matrix.diagonal v
  | .other m => m

/-- backend/common/uncachedvectorview.hh:73-80  `read(local_container)`: the entries below `size()` are overwritten, the size of the local
container is not changed. -/
def read (x : I → K) (e : Element I X V J K d) (local' : List K) : Option (List K) :=
  (List.range e.size).foldlM
    (fun l i => if i < l.length then some (l.set i (x (e.containerIndex i))) else none) local'

/-- The loops `for (i=0; i<n; i++) y.axpy(xl[index(i)], terms[i])` of all the functions. Used for `evaluate`, gridfunctionspaceutilities.hh:128-147. -/
def axpyLoop {W : Type} [AddCommGroup W] [Module K W] (xl : List K) (index : Nat → Nat) (terms : List W) (n : Nat) (y : W) : Option W :=
  (List.range n).foldlM (fun y i => do
    let c ← xl[index i]?
    let t ← terms[i]?
    pure (y + c • t)) y

/-- gridfunctionspaceutilities.hh:128-147  `DiscreteGridFunction::evaluate`. The state is the buffer `xl` of coefficients, which keeps its
contents between two calls (lines 107, 122: it is created with `maxLocalSize()` entries). -/
def evaluate [AddCommGroup V] [Module K V] (x : I → K) (xl : List K) (e : Element I X V J K d) (p : X) : Option (V × List K) := do
  let xl ← read x e xl
  let leaf ← e.leaves[0]?
  let yb := leaf.function p
  let y ← axpyLoop xl id yb yb.length 0
  pure (y, xl)

/-- gridfunctionspaceutilities.hh:551-585  `DiscreteGridFunctionGradient::evaluate`: resizes the buffer to `lfs.size()` (562; the entries
added are zero). The Jacobian of a shape function is given by its only row `J[i][0]`. -/
def evaluateGradient (x : I → K) (xl : List K) (e : Element I X V (Fin d → K) K d) (p : X) : Option ((Fin d → K) × List K) := do
  let xl ← read x e (xl.take e.size ++ List.replicate (e.size - xl.length) 0)
  let JgeoIT := (e.jacobianInverseTransposed p).toMatrix
  let leaf ← e.leaves[0]?
  let J := leaf.jacobian p
  let y ← axpyLoop xl id (J.map fun j => JgeoIT *ᵥ j) e.size 0
  pure (y, xl)

/-- gridfunctionspaceutilities.hh:862-879  `VectorDiscreteGridFunction::evaluate` for the children `remap[0], …`. -/
def evaluateVector (x : I → K) (remap : List Nat) (xl : List K) (e : Element I X K J K d) (p : X) : Option (List K × List K) := do
  let xl ← read x e xl
  let y ← remap.mapM fun k => do
    let child ← e.leaves[k]?
    let yb := child.function p
    axpyLoop xl child.localIndex yb yb.length 0
  pure (y, xl)

/-- gridfunctionspaceutilities.hh:785-786, 804-805  the children selected by the constructors with a first child. -/
def remapFrom (dimR start : Nat) : List Nat := (List.range dimR).map fun i => i + start

/-- gridfunctionspaceutilities.hh:978-1011  `VectorDiscreteGridFunctionGradient::evaluate`: one row for every child. -/
def evaluateVectorGradient (x : I → K) (xl : List K) (e : Element I X V (Fin d → K) K d) (p : X) :
    Option (List (Fin d → K) × List K) := do
  let xl ← read x e xl
  let JgeoIT := (e.jacobianInverseTransposed p).toMatrix
  let y ← e.leaves.mapM fun child => do
    let J := child.jacobian p
    axpyLoop xl child.localIndex (J.map fun j => JgeoIT *ᵥ j) child.size 0
  pure (y, xl)

/-- gridfunctionspaceutilities.hh:1047-1108  `SingleDerivativeComputationHelper::compute_derivative` for the three kinds of matrices. -/
def computeDerivative (mat : GeometryMatrix K d) (t : Fin d → K) (k : Fin d) : K :=
  match mat with
  | .other m => (m *ᵥ t) k
  | .field m => m k ⬝ᵥ t
  | .diagonal v => v k * t k

/-- gridfunctionspaceutilities.hh:1181-1221  `VectorDiscreteGridFunctionDiv::evaluate` (the number of children is `d`, lines 1160-1161). -/
def evaluateDiv (x : I → K) (xl : List K) (e : Element I X V (Fin d → K) K d) (p : X) : Option (K × List K) := do
  let xl ← read x e xl
  let JgeoIT := e.jacobianInverseTransposed p
  let y ← (List.finRange d).foldlM (fun y k => do
    let child ← e.leaves[k.val]?
    let J := child.jacobian p
    axpyLoop xl child.localIndex (J.map fun j => computeDerivative JgeoIT j k) child.size y) 0
  pure (y, xl)

/-- gridfunctionspaceutilities.hh:1362-1419  `VectorDiscreteGridFunctionCurl::evaluate` in three dimensions. -/
def evaluateCurl3 (x : I → K) (xl : List K) (e : Element I X V (Fin 3 → K) K 3) (p : X) : Option ((Fin 3 → K) × List K) := do
  let xl ← read x e xl
  let JgeoIT := e.jacobianInverseTransposed p
  let y ← (List.finRange 3).foldlM (fun y (k : Fin 3) => do
    let child ← e.leaves[k.val]?
    let J := child.jacobian p
    let i1 := k + 1
    let i2 := k + 2
    (List.range child.size).foldlM (fun (y : Fin 3 → K) i => do
      let c ← xl[child.localIndex i]?
      let j ← J[i]?
      let y := Function.update y i1 (y i1 + c * computeDerivative JgeoIT j i2)
      pure (Function.update y i2 (y i2 - c * computeDerivative JgeoIT j i1))) y) 0
  pure (y, xl)

/-- gridfunctionspaceutilities.hh:1512-1559  `VectorDiscreteGridFunctionCurl::evaluate` in two dimensions; the state of the loop contains
the sign. -/
def evaluateCurl2 (x : I → K) (xl : List K) (e : Element I X V (Fin 2 → K) K 2) (p : X) : Option (K × List K) := do
  let xl ← read x e xl
  let JgeoIT := e.jacobianInverseTransposed p
  let r ← (List.finRange 2).foldlM (fun (r : K × K) (k : Fin 2) => do
    let child ← e.leaves[k.val]?
    let J := child.jacobian p
    let i2 := 1 - k
    let y ← (List.range child.size).foldlM (fun (y : K) i => do
      let c ← xl[child.localIndex i]?
      let j ← J[i]?
      pure (y + r.2 * c * computeDerivative JgeoIT j i2)) r.1
    pure (y, r.2 * -1)) (0, -1)
  pure (r.1, xl)

/-- Access to an entry of a `FieldMatrix`. Used for `globalCurlAdd`, gridfunctionspaceutilities.hh:441-457. -/
def entry (j : List (List K)) (r c : Nat) : Option K := j[r]?.bind fun row => row[c]?

/-- `y[i] += v`. Used for `globalCurlAdd`, gridfunctionspaceutilities.hh:441-457. -/
def addAt (y : List K) (i : Nat) (v : K) : Option (List K) := if h : i < y.length then some (y.set i (y[i] + v)) else none

/-- gridfunctionspaceutilities.hh:293-348  the number of components of the curl, `DiscreteGridFunctionCurlTraits::dimRange`, for shape
functions with `dimRangeOfBasis` components. -/
def curlDimRange : (dimRangeOfBasis : Nat) → Option Nat
  | 1 => some 2
  | 2 => some 1
  | 3 => some 3
  | _ => none

/-- gridfunctionspaceutilities.hh:441-457  the body of the loop: the case is chosen with `Traits::dimRange`. -/
def globalCurlAdd (dimRange : Nat) (y : List K) (c : K) (j : List (List K)) : Option (List K) :=
  match dimRange with
  | 1 => do
    let y ← addAt y 0 (c * (← entry j 0 1))
    addAt y 1 (c * -(← entry j 0 0))
  | 2 => do addAt y 0 (c * ((← entry j 1 0) - (← entry j 0 1)))
  | 3 => do
    let y ← addAt y 0 (c * ((← entry j 2 1) - (← entry j 1 2)))
    let y ← addAt y 1 (c * ((← entry j 0 2) - (← entry j 2 0)))
    addAt y 2 (c * ((← entry j 1 0) - (← entry j 0 1)))
  | _ => none

/-- gridfunctionspaceutilities.hh:423-458  `DiscreteGridFunctionGlobalCurl::evaluate`: `xl` are the coefficients read, `J` the global
Jacobians of the shape functions (`evaluateJacobianGlobal`). -/
def globalCurl (dimRangeOfBasis : Nat) (xl : List K) (J : List (List (List K))) : Option (List K) := do
  let dimRange ← curlDimRange dimRangeOfBasis
  (List.range J.length).foldlM (fun y i => do globalCurlAdd dimRange y (← xl[i]?) (← J[i]?)) (List.replicate dimRange 0)

/-- jacobiantocurl.hh:66-69 -/
def jacobianToCurl12 (jac : Matrix (Fin 1) (Fin 2) K) : Fin 2 → K := ![jac 0 1, -jac 0 0]

/-- jacobiantocurl.hh:107-109 -/
def jacobianToCurl22 (jac : Matrix (Fin 2) (Fin 2) K) : Fin 1 → K := ![jac 1 0 - jac 0 1]

/-- jacobiantocurl.hh:142-148 -/
def jacobianToCurl33 (jac : Matrix (Fin 3) (Fin 3) K) : Fin 3 → K := fun alpha =>
  let beta := alpha + 1
  let gamma := alpha + 2
  jac gamma beta - jac beta gamma

/-- crossproduct.hh:67-73 -/
def crossProduct33 (b c : Fin 3 → K) : Fin 3 → K := fun i =>
  let j := i + 1
  let k := i + 2
  b j * c k - b k * c j

/-- crossproduct.hh:107-109 -/
def crossProduct22 (b c : Fin 2 → K) : Fin 1 → K := ![b 0 * c 1 - b 1 * c 0]

/-- crossproduct.hh:144-147 -/
def crossProduct21 (b : Fin 2 → K) (c : Fin 1 → K) : Fin 2 → K := ![b 1 * c 0, -(b 0 * c 0)]

/-- crossproduct.hh:182-185 -/
def crossProduct12 (b : Fin 1 → K) (c : Fin 2 → K) : Fin 2 → K := ![-(b 0 * c 1), b 0 * c 0]

/-! ### DiscreteGridViewFunction -/

/-- discretegridviewfunction.hh:96-305  a local function: the coefficients read and the element it is bound to. -/
structure LocalFunction (I X V J K : Type) (d : Nat) where
  xl : List K
  element : Option (Element I X V J K d)

/-- discretegridviewfunction.hh:110-119  the constructor. -/
def LocalFunction.create (maxLocalSize : Nat) : LocalFunction I X V J K d := ⟨List.replicate maxLocalSize 0, none⟩

/-- discretegridviewfunction.hh:127-135  `bind`. -/
def LocalFunction.bind (x : I → K) (f : LocalFunction I X V J K d) (e : Element I X V J K d) : Option (LocalFunction I X V J K d) := do
  let xl ← read x e f.xl
  pure ⟨xl, some e⟩

/-- discretegridviewfunction.hh:137-140  `unbind`. -/
def LocalFunction.unbind (f : LocalFunction I X V J K d) : LocalFunction I X V J K d := { f with element := none }

/-- discretegridviewfunction.hh:166-173  `derivative(localFunction)`: a new local function, which is bound to the element the function is
bound to. -/
def LocalFunction.derivative (x : I → K) (maxLocalSize : Nat) (f : LocalFunction I X V J K d) : Option (LocalFunction I X V J K d) :=
  match f.element with
  | some e => (LocalFunction.create maxLocalSize).bind x e
  | none => some (LocalFunction.create maxLocalSize)

/-- discretegridviewfunction.hh:200-213  `evaluate<0>`. The local function space stays bound to the last element after `unbind`; calling an
unbound function is not allowed (lines 178-182) and is modelled as undefined. -/
def LocalFunction.call [AddCommGroup V] [Module K V] (f : LocalFunction I X V J K d) (p : X) : Option V := do
  let e ← f.element
  let leaf ← e.leaves[0]?
  let yb := leaf.function p
  axpyLoop f.xl id yb yb.length 0

/-- discretegridviewfunction.hh:215-244  `evaluate<1>`: the Jacobians of the shape functions have `m` rows. -/
def LocalFunction.callDerivative {m : Nat} (f : LocalFunction I X V (Matrix (Fin m) (Fin d) K) K d) (p : X) :
    Option (Matrix (Fin m) (Fin d) K) := do
  let e ← f.element
  let leaf ← e.leaves[0]?
  let JgeoIT := (e.jacobianInverseTransposed p).toMatrix
  let yb := leaf.jacobian p
  axpyLoop f.xl id (yb.map fun y => (fun j => JgeoIT *ᵥ y j : Matrix (Fin m) (Fin d) K)) yb.length 0

/-- What evaluating a second derivative does. Used for `hessian`, discretegridviewfunction.hh:246-293. -/
inductive Hessian (K : Type) where
  | value (r : Nat → Nat → K)
  | notImplemented
  /-- a failed assertion or access outside a container -/
  | undefined

/-- The entries of an array after an assignment. Used for `hessianInner`, discretegridviewfunction.hh:275-284. -/
def assign {α : Type} (a : Nat → α) (i : Nat) (v : α) : Nat → α := fun k => if k = i then v else a k

/-- The entries of a matrix after an assignment. Used for `hessianInner`, discretegridviewfunction.hh:275-284. -/
def assign2 {α : Type} (a : Nat → Nat → α) (i j : Nat) (v : α) : Nat → Nat → α := assign a i (assign (a i) j v)

/-- discretegridviewfunction.hh:275-284  the body of the inner loop. -/
def hessianInner (xl : List K) (partials : (Nat → Nat) → List K) (i : Nat) (s : (Nat → Nat) × (Nat → Nat → K)) (j : Nat) :
    Option ((Nat → Nat) × (Nat → Nat → K)) := do
  let directions := assign s.1 j 1
  let yb := partials directions
  if yb.length ≠ 1 then none
  let r ← (List.range yb.length).foldlM (fun r _ => do
    let c ← xl[i]?
    let v ← yb[j]?
    pure (assign2 r i j (r i j + c * v))) s.2
  pure (assign directions j 0, assign2 r j i (r i j))

/-- discretegridviewfunction.hh:269-287  the loops over the directions. -/
def hessianLoop (dim : Nat) (xl : List K) (partials : (Nat → Nat) → List K) (directions : Nat → Nat) :
    Option ((Nat → Nat) × (Nat → Nat → K)) :=
  (List.range dim).foldlM (fun s i => do
    let directions := assign s.1 i 2
    let directions := assign directions i 1
    let s ← (List.range' (i + 1) (dim - (i + 1))).foldlM (hessianInner xl partials i) (directions, s.2)
    pure (assign s.1 i 0, s.2)) (directions, fun _ _ => 0)

/-- discretegridviewfunction.hh:246-293  `evaluate<2>`. `partials` is `localBasis().partial(directions,coord,·)`; `directions` are the
contents of the array `directions`, which is not initialised (268). The types of the containers, with which `partial` cannot be called, are
ignored; the function is not used in the repository. -/
def hessian (dim : Nat) (affine : Bool) (jit : Nat → Nat → K) (xl : List K) (partials : (Nat → Nat) → List K) (directions : Nat → Nat) :
    Hessian K :=
  if affine then
    match hessianLoop dim xl partials directions with
    | some s =>
      .value ((List.range dim).foldl (fun r i =>
        (List.range' i (dim - i)).foldl (fun r j => assign2 r i j (r i j * (jit i j * jit i j))) r) s.2)
    | none => .undefined
  else .notImplemented

/-! ### Vector fields -/

/-- gridfunctionspaceutilities.hh:676-686  the last part of `DiscreteGridFunctionPiola::evaluate`: `yhat` is the value on the reference
element. -/
noncomputable def piolaForward (jacobianInverseTransposed : Matrix (Fin d) (Fin d) K) (yhat : Fin d → K) : Fin d → K :=
  let J := jacobianInverseTransposed⁻¹
  let y := Jᵀ *ᵥ yhat
  (J.det)⁻¹ • y

/-- gridfunctionspaceutilities.hh:665-689  `DiscreteGridFunctionPiola::evaluate`. -/
noncomputable def evaluatePiola (x : I → K) (xl : List K) (e : Element I X (Fin d → K) J K d) (p : X) : Option ((Fin d → K) × List K) := do
  let (yhat, xl) ← evaluate x xl e p
  pure (piolaForward (e.jacobianInverseTransposed p).toMatrix yhat, xl)

/-- common/function.hh:802-816  `PiolaBackwardAdapter::evaluate`: `v` is the value of the wrapped function. -/
def piolaBackward (jacobianInverseTransposed : Matrix (Fin d) (Fin d) K) (integrationElement : K) (v : Fin d → K) : Fin d → K :=
  integrationElement • (jacobianInverseTransposedᵀ *ᵥ v)

/-- What `NormalFluxGridFunctionAdapter::evaluate` does. Used for `normalFlux`, common/function.hh:705-775. -/
inductive NormalFlux (K : Type) where
  | value (y : K)
  | notImplemented
  | notOnEdge

variable [LinearOrder K]

/-- common/function.hh:705-775  `NormalFluxGridFunctionAdapter::evaluate`: `v` is the value of the wrapped function at `x`, `corner` are the
corners of the element, `twoNorm` is the Euclidean norm. -/
def normalFlux (twoNorm : (Fin 2 → K) → K) (isTriangle : Bool) (corner : Fin 3 → Fin 2 → K) (v x : Fin 2 → K) : NormalFlux K :=
  let flux (n0 n1 : Fin 3) : NormalFlux K :=
    let nu := corner n1 - corner n0
    let nu : Fin 2 → K := ![nu 1, -nu 0]
    let nu := (twoNorm nu)⁻¹ • nu
    .value (v 0 * nu 0 + v 1 * nu 1)
  if !isTriangle then .notImplemented
  else if |x 0| < 1 / 10 ^ 10 then flux 2 0
  else if |x 1| < 1 / 10 ^ 10 then flux 0 1
  else if |x 0 + x 1 - 1| < 1 / 10 ^ 10 then flux 1 2
  else .notOnEdge

end Verif.DiscreteFunctions
