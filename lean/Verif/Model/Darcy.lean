import Verif.Model.ConvectionDiffusion
import Mathlib.LinearAlgebra.Matrix.Determinant.Basic
/-
Velocity fields from a pressure: dune/pdelab/localoperator/darcyccfv.hh and darcyfem.hh.
-/
namespace Verif.LocalOp.Darcy

open Matrix

variable {K P Q : Type} [Field K] {d : Nat}

/-- What the constructor sees of an intersection: the number of the face in the inside cell, the geometry, the parameters, if it
is at the boundary, and the cell on the other side with its parameters and its pressure. Used for `normalVelocity`, darcyccfv.hh:163-228. -/
structure Intersection (K P Q : Type) (d : Nat) where
  index : Fin (2 * d)
  geo : FaceGeo K P Q d
  fpar : FaceParam K Q
  boundary : Bool
  outside : Option (CellGeo K P d × CellParam K P d × K)

/-- The normal velocity `vn[indexInInside]`, darcyccfv.hh:163-228. -/
def normalVelocity (twoNorm : (Fin d → K) → K) (geo : CellGeo K P d) (par : CellParam K P d) (plInside : K)
    (is : Intersection K P Q d) : K :=
  let vn : K := 0
  let nF := is.geo.centerUnitOuterNormal
  let kInside := nF ⬝ᵥ (par.A geo.center *ᵥ nF)
  let vn := match is.outside with
    | some (geoOut, parOut, plOutside) =>
      let distance := twoNorm (geoOut.global geoOut.center - geo.global geo.center)
      let kOutside := nF ⬝ᵥ (parOut.A geoOut.center *ᵥ nF)
      let kAvg := 2 / (1 / (kInside + 1 / 10 ^ 30) + 1 / (kOutside + 1 / 10 ^ 30))
      kAvg * (plInside - plOutside) / distance
    | none => vn
  if is.boundary then
    let distance := twoNorm (is.geo.global is.geo.center - geo.global geo.center)
    match is.fpar.bctype is.geo.center with
    | .dirichlet => kInside * (plInside - par.g (is.geo.inInside is.geo.center)) / distance
    | .neumann => is.fpar.j is.geo.center
    | .outflow | .none => vn
  else vn

/-- The normal on the reference element, darcyccfv.hh:233-237. -/
def normalHat (i : Fin (2 * d)) : Fin d → K :=
  fun k => if k.val = i.val / 2 then (if i.val % 2 = 0 then -1 else 1) else 0

/-- The coefficient of a face, darcyccfv.hh:157-158, 230-241. -/
def coefficient (geo : CellGeo K P d) (vn : K) (is : Intersection K P Q d) : K :=
  let B := geo.jacobianInverseTransposed geo.center
  let determinant := B.det
  let vstar := vn • is.geo.centerUnitOuterNormal
  let vstarhat := determinant • (Bᵀ *ᵥ vstar)
  vstarhat ⬝ᵥ normalHat is.index

/-- The coefficients of a cell, darcyccfv.hh:135-243: the loop over the intersections. They are zero before. -/
def coefficients (twoNorm : (Fin d → K) → K) (geo : CellGeo K P d) (par : CellParam K P d) (plInside : K)
    (iss : List (Intersection K P Q d)) : Fin (2 * d) → K :=
  iss.foldl (fun c is => Function.update c is.index (coefficient geo (normalVelocity twoNorm geo par plInside is) is)) 0

/-- What is kept between calls of `evaluate`, darcyccfv.hh:115-117: the number of the cell, its transformation and the
determinant of it. At the beginning the number is -1. -/
abbrev Cache (K : Type) (d : Nat) := Option (Nat × Matrix (Fin d) (Fin d) K × K)

/-- `evaluate`, darcyccfv.hh:257-280. `rt0` are the values of the shape functions of lowest order of Raviart and Thomas on the
cube, `jacobianTransposed` and `coeffs` are given by the number of the cell. -/
def evaluate (rt0 : P → Fin (2 * d) → Fin d → K) (jacobianTransposed : Nat → P → Matrix (Fin d) (Fin d) K)
    (coeffs : Nat → Fin (2 * d) → K) (cache : Cache K d) (index : Nat) (x : P) : (Fin d → K) × Cache K d :=
  let yhat := ∑ i, coeffs index i • rt0 x i
  let update := (index, jacobianTransposed index x, (jacobianTransposed index x).det)
  let c := match cache with
    | some (i, B, det) => if index ≠ i then update else (i, B, det)
    | none => update
  (c.2.2 • (c.2.1ᵀ *ᵥ yhat), some c)

/-- The cache after a sequence of calls of `evaluate`. Source: the calls of `evaluate`, darcyccfv.hh:257-280. -/
def cacheAfter (rt0 : P → Fin (2 * d) → Fin d → K) (jacobianTransposed : Nat → P → Matrix (Fin d) (Fin d) K)
    (coeffs : Nat → Fin (2 * d) → K) (history : List (Nat × P)) : Cache K d :=
  history.foldl (fun c h => (evaluate rt0 jacobianTransposed coeffs c h.1 h.2).2) none

/-- `VectorExchange`, darcyccfv.hh:20-81, with the communication of lines 245-248. `values` are the coefficients stored by each
process for its cells; a message `(sender,receiver,cell)` carries what the sender had stored before the communication. -/
def exchange {V Proc Cell : Type} [DecidableEq Proc] [DecidableEq Cell] (values : Proc → Cell → V)
    (messages : List (Proc × Proc × Cell)) : Proc → Cell → V :=
  messages.foldl (fun r m => fun p c => if p = m.2.1 ∧ c = m.2.2 then values m.1 m.2.2 else r p c) values

/-- `DarcyVelocityFromHeadFEM::evaluate`, darcyfem.hh:77-117; `xl` are the coefficients on the element. -/
def evaluateFEM {n : Nat} (geo : CellGeo K P d) (fe : Basis K P d n) (A : P → Matrix (Fin d) (Fin d) K) (xl : Fin n → K) (x : P) :
    Fin d → K :=
  let gradphi : Fin n → Fin d → K := fun i => geo.jacobianInverseTransposed x *ᵥ fe.js x i
  let minusgrad := ∑ i, (-xl i) • gradphi i
  A geo.center *ᵥ minusgrad

/-- `evalFunction`, eval.hh:20-36. -/
def evalFunction {n : Nat} (fe : Basis K P d n) (xlocal : Fin n → K) (location : P) : K := ∑ i, xlocal i * fe.phi location i

/-- `evalGradient`, eval.hh:47-77. -/
def evalGradient {n : Nat} (geo : CellGeo K P d) (fe : Basis K P d n) (xlocal : Fin n → K) (location : P) : Fin d → K :=
  ∑ i, xlocal i • (geo.jacobianInverseTransposed location *ᵥ fe.js location i)

end Verif.LocalOp.Darcy
