import Verif.Model.CCFVAssembly
import Verif.Model.TransientSolve
import Mathlib.Logic.Equiv.Fin.Basic
/-
The cell-centred finite volume method for the (instationary) convection-diffusion equation as what the grid operator sees of it: the contributions of the local
operators of dune/pdelab/localoperator/convectiondiffusionccfv.hh in the calls of the grid traversal (`Verif.Model.GridAssembler`), and the pattern. There is one
degree of freedom per cell and there are no constraints; `dof` is the container index of the degree of freedom of the cell with a given index.
-/
namespace Verif.LocalOp.CCFV
open GridAssembler ConstrainedSolve

variable {K P Q I : Type} [Field K] [LinearOrder K] [Inhabited I] {d : Nat}

/-- What the engines make of a call of the assembler: residualengine.hh:264-309, jacobianengine.hh:242-269 with convectiondiffusionccfv.hh:64-482. The local vectors
and matrices of the two cells of a face are one here. `lambda_volume` has no Jacobian. -/
def partOf (pb : Problem K P Q d) (dof : Nat → I) (e : Event) : Option (Part I K) :=
  match e.kind with
  | .assembleUVVolume =>
    some (Part.ofCalls (Equiv.refl (Fin 1)) (fun _ => dof e.cell) (alphaVolume (pb.cellGeo e.cell) (pb.cellPar e.cell))
      fun _ => jacobianVolume (pb.cellGeo e.cell) (pb.cellPar e.cell))
  | .assembleVVolume =>
    some (Part.ofCalls (Equiv.refl (Fin 1)) (fun _ => dof e.cell) (fun _ => lambdaVolume (pb.cellGeo e.cell) (pb.cellPar e.cell)) fun _ => [])
  | .assembleUVSkeleton =>
    some (Part.ofCalls (finSumFinEquiv : Sides ≃ Fin (1 + 1)) (Sum.elim (fun _ => dof e.cell) fun _ => dof e.outside)
      (alphaSkeleton pb.twoNorm (pb.faceGeo e.cell e.face) (pb.cellGeo e.cell) (pb.cellGeo e.outside) (pb.cellPar e.cell) (pb.cellPar e.outside))
      fun _ => jacobianSkeleton pb.twoNorm (pb.faceGeo e.cell e.face) (pb.cellGeo e.cell) (pb.cellGeo e.outside) (pb.cellPar e.cell) (pb.cellPar e.outside))
  | .assembleUVBoundary =>
    some (Part.ofCalls (Equiv.refl (Fin 1)) (fun _ => dof e.cell)
      (alphaBoundary pb.twoNorm (pb.faceGeo e.cell e.face) (pb.cellGeo e.cell) (pb.cellPar e.cell) (pb.facePar e.cell e.face))
      fun _ => jacobianBoundary pb.twoNorm (pb.faceGeo e.cell e.face) (pb.cellGeo e.cell) (pb.cellPar e.cell) (pb.facePar e.cell e.face))
  | _ => none

/-- All contributions, default/assembler.hh:84-279. -/
def meshParts (allPartitions : Bool) (pb : Problem K P Q d) (dof : Nat → I) : List (Part I K) :=
  (assemble engine allPartitions pb.cells).filterMap (partOf pb dof)

/-- The answers of the pattern engine to the queries of the assembler, patternengine.hh:91-117 with convectiondiffusionccfv.hh:49-50. -/
def patternEngine : Engine where
  uvSkeleton := true
  vSkeleton := false
  uvBoundary := false
  vBoundary := false
  uvPost := false
  vPost := false
  twoSided := false
  interiorOnly := false
  skipEntity _ := false
  skipIntersection _ _ _ := false

/-- `FullSkeletonPattern` for one degree of freedom on each side, localoperator/pattern.hh:28-55. -/
def facePattern (s t : I) : Assembly.PatternPart I where
  nv := 2
  nu := 2
  v i := if i = 0 then s else t
  u i := if i = 0 then s else t
  links := [(0, 1), (1, 0)]

/-- What the pattern engine collects at a call of the assembler, patternengine.hh:211-234 with localoperator/pattern.hh:18-55. -/
def patternOf (dof : Nat → I) (e : Event) : Option (Assembly.PatternPart I) :=
  match e.kind with
  | .assembleUVVolume => some (fullVolumePattern (Equiv.refl (Fin 1)) fun _ => dof e.cell)
  | .assembleUVSkeleton => some (facePattern (dof e.cell) (dof e.outside))
  | _ => none

/-- The pattern, default/assembler.hh:84-279 with the pattern engine. -/
def meshPattern (allPartitions : Bool) (cells : List Cell) (dof : Nat → I) : List (Assembly.PatternPart I) :=
  (assemble patternEngine allPartitions cells).filterMap (patternOf dof)

/-- Coefficients and boundary conditions that depend on time (`setTime` of the parameter class, convectiondiffusionccfv.hh:484-488). The capacity does not. -/
structure Transient (K P Q : Type) (d : Nat) where
  base : Problem K P Q d
  cellPar : K → Nat → CellParam K P d
  facePar : K → Nat → Nat → FaceParam K Q

/-- The problem at a time, convectiondiffusionccfv.hh:484-488. -/
def Transient.at (pb : Transient K P Q d) (τ : K) : Problem K P Q d := { pb.base with cellPar := pb.cellPar τ, facePar := pb.facePar τ }

/-- The kind of contribution that is assembled in a call, onestep/enginebase.hh:361-460. -/
def kindOf : Kind → Option OneStep.Kind
  | .assembleUVVolume => some .uvVolume
  | .assembleVVolume => some .vVolume
  | .assembleUVSkeleton => some .uvSkeleton
  | .assembleVSkeleton => some .vSkeleton
  | .assembleUVBoundary => some .uvBoundary
  | .assembleVBoundary => some .vBoundary
  | .assembleUVVolumePostSkeleton => some .uvPost
  | .assembleVVolumePostSkeleton => some .vPost
  | _ => none

/-- The calls of the assembler in a stage, default/assembler.hh:84-279: those of the spatial operator, which needs all that the temporal operator needs
(onestep/enginebase.hh:70-140). Calls are identified by their number. -/
def Transient.trace (allPartitions : Bool) (pb : Transient K P Q d) : List (OneStep.Kind × Nat) :=
  (assemble engine allPartitions pb.base.cells).zipIdx.filterMap fun e => (kindOf e.1.kind).map fun k => (k, e.2)

/-- The spatial operator, convectiondiffusionccfv.hh:64-482. -/
def Transient.spatial (allPartitions : Bool) (pb : Transient K P Q d) (dof : Nat → I) : LocalParts I K := fun k n τ =>
  (assemble engine allPartitions pb.base.cells)[n]?.bind fun e => if kindOf e.kind = some k then partOf (pb.at τ) dof e else none

/-- The temporal operator at a call of the assembler, convectiondiffusionccfv.hh:552-596. -/
def temporalPartOf (pb : Problem K P Q d) (dof : Nat → I) (e : Event) : Option (Part I K) :=
  match e.kind with
  | .assembleUVVolume =>
    some (Part.ofCalls (Equiv.refl (Fin 1)) (fun _ => dof e.cell) (temporalAlphaVolume (pb.cellGeo e.cell) (pb.capacity e.cell))
      fun _ => temporalJacobianVolume (pb.cellGeo e.cell) (pb.capacity e.cell))
  | _ => none

/-- The temporal operator, convectiondiffusionccfv.hh:527-600. -/
def Transient.temporal (allPartitions : Bool) (pb : Transient K P Q d) (dof : Nat → I) : LocalParts I K := fun k n _ =>
  (assemble engine allPartitions pb.base.cells)[n]?.bind fun e => if kindOf e.kind = some k then temporalPartOf pb.base dof e else none

end Verif.LocalOp.CCFV
