import Verif.Model.FEMMesh
import Verif.Model.OneStepMethod
import Verif.Model.VectorOperators
/-
The instationary grid operator for a finite element method with constraints, its stages solved by the solver for linear problems: what
dune/pdelab/gridoperator/onestep.hh and its engines assemble from the local contributions of a spatial and a temporal operator, with the treatment of
constraints by the engines of the two grid operators. Trial and test space and their constraints are the same.
-/
namespace Verif.ConstrainedSolve
open Constraints Assembly
open OneStep (Kind Op Setting St)

/-- The contributions of a local operator by kind of call, cell or intersection, and time. `none`: the local operator has no such method, or there is no such
call. Source: the calls of the local operators in gridoperator/default/residualengine.hh:264-350 and jacobianengine.hh:216-330. -/
abbrev LocalParts (I K : Type) := Kind → Nat → K → Option (Part I K)

variable {I K : Type} [DecidableEq I] [Field K] [LinearOrder K]

/-- What one call adds to a residual vector, residualengine.hh:183-187. -/
def contribution (L : LocalParts I K) : Op K (I → K) (I → K) := fun k e τ x =>
  match L k e τ with
  | none => fun _ => 0
  | some p => addLocal x (fun _ => 0) p

/-- `preStage`, onestep.hh:146-156: the constant part of the residual. Only the second of the two grid operators processes constraints
(gridoperator.hh:122-150), in `lae1->postAssembly`, onestep/prestageengine.hh:193-198. -/
def stageConst (t : Trafo I K) (P : Setting K) (L0 L1 : LocalParts I K) (trace : List (Kind × Nat)) (x : Nat → I → K)
    (st : St K (I → K) (I → K)) : I → K :=
  constrainResidual t (OneStep.preStage P true (contribution L0) (contribution L1) x trace st).res0

/-- `residual`, onestep.hh:158-167, with a zero `r`: the constant part is added before the constraints are processed, onestep/residualengine.hh:161-176. -/
def stageResidual (t : Trafo I K) (P : Setting K) (L0 L1 : LocalParts I K) (const : I → K) (trace : List (Kind × Nat)) (x : I → K) : I → K :=
  constrainResidual t (OneStep.residual P (contribution L0) (contribution L1) const trace x fun _ => 0)

/-- A contribution with the weight that is set in the assembler: `rl_view.setWeight(local_assembler.weight())`, residualengine.hh:264-350, and the same in
jacobianengine.hh:242-300. -/
def Part.scaled (w : K) (p : Part I K) : Part I K where
  nv := p.nv
  nu := p.nu
  v := p.v
  u := p.u
  residual x i := w * p.residual x i
  jacobian x i j := w * p.jacobian x i j

/-- What the engine of the Jacobian collects in a stage, onestep/jacobianengine.hh:89-125 and onestep/enginebase.hh:361-460: the spatial operator if the stage
is implicit, and the temporal operator, with their weights. -/
def stageParts (P : Setting K) (L0 L1 : LocalParts I K) (trace : List (Kind × Nat)) : List (Part I K) :=
  let τ := P.time + P.scheme.d P.stage * P.dt
  let brr := P.scheme.b P.stage P.stage
  trace.flatMap fun c =>
    (if |brr| > OneStep.threshold then (L0 c.1 c.2 τ).toList.map (Part.scaled (brr * P.factor0)) else []) ++
    (if OneStep.forwards1 c.1 then (L1 c.1 c.2 τ).toList.map (Part.scaled P.factor1) else [])

/-- linearproblem.hh:188-302  `apply(false)` of the solver for linear problems with hanging node modifications, called for a stage: `xs` are the vectors of
the earlier stages. (`applyLinear` for the instationary grid operator.) -/
def stageSolve (t : Trafo I K) (symmetric : Bool) (ci0 : Nat → I) (pattern : List (Assembly.PatternPart I)) (P : Setting K) (L0 L1 : LocalParts I K)
    (trace : List (Kind × Nat)) (st : St K (I → K) (I → K)) (solve : Assembly.Matrix I K → (I → K) → I → K) (xs : List (I → K)) (x : I → K) :
    Option (I → K) := do
  let const := stageConst t P L0 L1 trace (fun s => xs.getD s fun _ => 0) st
  let x := backTransform t false (setShifted t 0 x)
  let m ← jacobian t symmetric ci0 pattern (stageParts P L0 L1 trace) x
  let r := stageResidual t P L0 L1 const trace x
  let z := solve m r
  let x := setShifted t 0 x
  let x := fun i => x i - z i
  return backTransform t false x

/-- What `OneStepMethod::apply` with a boundary function calls, implicitonestep.hh:291-425: stage vectors get the boundary values at the time of the stage,
each stage is solved by `stageSolve`; a matrix that cannot be assembled counts as a failure. `res` are the statistics the solver returns. -/
def stageEnv {σ T : Type} (t : Trafo I K) (symmetric : Bool) (ci0 : Nat → I) (pattern : List (Assembly.PatternPart I)) (S : OneStep.Scheme K) (time dt : K)
    (mode : OneStep.DTMode) (L0 L1 : LocalParts I K) (trace : List (Kind × Nat)) (st0 : St K (I → K) (I → K))
    (solve : Assembly.Matrix I K → (I → K) → I → K) (g : K → I → K) (res : OneStep.PDERes T) : OneStep.Env σ (I → K) T where
  s := S.s
  preStageOk _ _ := true
  initStage := OneStep.initInterpolate (fun k => (find? k t.rows).isSome) (fun r => g (time + S.d r * dt)) S.s
  solve st r xs guess :=
    match stageSolve t symmetric ci0 pattern ⟨S, time, dt, mode, r⟩ L0 L1 trace st0 solve xs guess with
    | none => (st, false, guess, res)
    | some x => (st, true, x, res)

end Verif.ConstrainedSolve

namespace Verif.LocalOp.FEM
open ConstrainedSolve

/-- Coefficients and boundary conditions that depend on time (`setTime` of the parameter class, convectiondiffusionfem.hh:330-335), on a mesh. -/
structure Transient (K P Q I : Type) (d : Nat) {N : Nat} (n : Fin N → Nat) where
  geo : Fin N → CellGeo K P d
  lfs : (c : Fin N) → Basis K P d (n c)
  dof : (c : Fin N) → Fin (n c) → I
  par : K → Fin N → CellParam K P d
  boundary : List (K → DG.BoundaryFace K P Q d N)

variable {K P Q I : Type} [Field K] [LinearOrder K] [Inhabited I] {d N : Nat} {n : Fin N → Nat}

/-- The problem at a time, convectiondiffusionfem.hh:330-335. -/
def Transient.at (pb : Transient K P Q I d n) (τ : K) : Mesh K P Q I d n where
  geo := pb.geo
  par := pb.par τ
  lfs := pb.lfs
  dof := pb.dof
  boundary := pb.boundary.map fun F => F τ

/-- The spatial operator: `alpha_volume` and `alpha_boundary`, convectiondiffusionfem.hh:61-325. -/
def Transient.spatial (add : Int) (pb : Transient K P Q I d n) : LocalParts I K := fun k e τ =>
  match k with
  | .uvVolume => if h : e < N then some (cellPart add (pb.at τ) ⟨e, h⟩) else none
  | .uvBoundary => pb.boundary[e]?.map fun F => facePart add (pb.at τ) (F τ)
  | _ => none

/-- The mass operator of a cell: `L2` for a space that is not a tree, l2.hh:45-127. -/
def massPart (intorderadd : Int) (scaling : K) (pb : Transient K P Q I d n) (c : Fin N) : Part I K :=
  Part.ofCalls (Equiv.refl _) (pb.dof c) (L2.scalarAlphaVolume intorderadd scaling (pb.geo c) (pb.lfs c))
    fun _ => L2.scalarJacobianVolume intorderadd scaling (pb.geo c) (pb.lfs c)

/-- The temporal operator, l2.hh:45-127. -/
def Transient.temporal (intorderadd : Int) (scaling : K) (pb : Transient K P Q I d n) : LocalParts I K := fun k e _ =>
  match k with
  | .uvVolume => if h : e < N then some (massPart intorderadd scaling pb ⟨e, h⟩) else none
  | _ => none

/-- The calls of the grid assembler, gridoperator/default/assembler.hh:84-279: all cells and boundary faces (cell by cell; their order does not matter). -/
def Transient.trace (pb : Transient K P Q I d n) : List (OneStep.Kind × Nat) :=
  (List.range N).map (fun c => (.uvVolume, c)) ++ (List.range pb.boundary.length).map fun F => (.uvBoundary, F)

/-- The pattern (both operators have the full pattern of a cell), localoperator/pattern.hh:18-26. -/
def Transient.pattern (pb : Transient K P Q I d n) : List (Assembly.PatternPart I) :=
  (List.finRange N).map fun c => fullVolumePattern (Equiv.refl _) (pb.dof c)

end Verif.LocalOp.FEM
