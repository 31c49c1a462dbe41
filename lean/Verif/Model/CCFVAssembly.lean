import Verif.Model.ConvectionDiffusion
import Verif.Model.GridAssembler
/-
The residual of the cell-centred finite volume operator on a whole grid: the calls of the grid traversal
(`Verif.Model.GridAssembler`) interpreted by the residual engine (dune/pdelab/gridoperator/default/residualengine.hh).

There is one degree of freedom per cell; vectors are functions of the index of the cell. The local vectors are filled from
the solution at `loadCoefficients...`, and the local residuals added to the global one at `onUnbind...` (lines 193-230); both
are left out because the accumulated values are sums. The weight of the views is 1.
-/
namespace Verif.LocalOp.CCFV

open GridAssembler

/-- The grid, the geometry and the coefficients: what the operator sees on the cell with a given index and on an
intersection, seen from a given cell. Source: the arguments of the methods of convectiondiffusionccfv.hh:64-520. -/
structure Problem (K P Q : Type) (d : Nat) where
  cells : List Cell
  twoNorm : (Fin d → K) → K
  cellGeo : Nat → CellGeo K P d
  cellPar : Nat → CellParam K P d
  /-- cell, face -/
  faceGeo : Nat → Nat → FaceGeo K P Q d
  facePar : Nat → Nat → FaceParam K Q
  /-- `param.d` of the temporal operator -/
  capacity : Nat → P → K

/-- convectiondiffusionccfv.hh:53-58 with the defaults of flags.hh:56-98: the answers of the residual engine to the queries
of the assembler (residualengine.hh:73-91). -/
def engine : Engine where
  uvSkeleton := true
  vSkeleton := false
  uvBoundary := true
  vBoundary := false
  uvPost := false
  vPost := false
  twoSided := false
  interiorOnly := false
  skipEntity _ := false
  skipIntersection _ _ _ := false

/-- The answers of the residual engine for the temporal operator (convectiondiffusionccfv.hh:540-545). -/
def temporalEngine : Engine where
  uvSkeleton := false
  vSkeleton := false
  uvBoundary := false
  vBoundary := false
  uvPost := false
  vPost := false
  twoSided := false
  interiorOnly := false
  skipEntity _ := false
  skipIntersection _ _ _ := false

variable {K P Q : Type} [Field K] [LinearOrder K] {d : Nat}

/-- residualengine.hh:264-309  what the engine does at a call of the assembler (`doLambdaSkeleton`, `doLambdaBoundary` and the
post-skeleton flags are false). -/
def onEvent (pb : Problem K P Q d) (u : Nat → K) (e : Event) : Calls Nat K :=
  match e.kind with
  | .assembleUVVolume =>
    (alphaVolume (pb.cellGeo e.cell) (pb.cellPar e.cell) fun _ => u e.cell).map fun c => (e.cell, c.2)
  | .assembleVVolume =>
    (lambdaVolume (pb.cellGeo e.cell) (pb.cellPar e.cell)).map fun c => (e.cell, c.2)
  | .assembleUVSkeleton =>
    (alphaSkeleton pb.twoNorm (pb.faceGeo e.cell e.face) (pb.cellGeo e.cell) (pb.cellGeo e.outside) (pb.cellPar e.cell)
      (pb.cellPar e.outside) (Sum.elim (fun _ => u e.cell) fun _ => u e.outside)).map fun c =>
        (Sum.elim (fun _ => e.cell) (fun _ => e.outside) c.1, c.2)
  | .assembleUVBoundary =>
    (alphaBoundary pb.twoNorm (pb.faceGeo e.cell e.face) (pb.cellGeo e.cell) (pb.cellPar e.cell) (pb.facePar e.cell e.face)
      fun _ => u e.cell).map fun c => (e.cell, c.2)
  | _ => []

/-- default/assembler.hh:84-279 with the residual engine: all contributions to the residual. -/
def residualCalls (allPartitions : Bool) (pb : Problem K P Q d) (u : Nat → K) : Calls Nat K :=
  (assemble engine allPartitions pb.cells).flatMap (onEvent pb u)

/-- residualengine.hh:264-270 for the temporal operator: only `doAlphaVolume` is set (convectiondiffusionccfv.hh:540-545). -/
def onEventTemporal (pb : Problem K P Q d) (u : Nat → K) (e : Event) : Calls Nat K :=
  match e.kind with
  | .assembleUVVolume =>
    (temporalAlphaVolume (pb.cellGeo e.cell) (pb.capacity e.cell) fun _ => u e.cell).map fun c => (e.cell, c.2)
  | _ => []

/-- default/assembler.hh:84-279 with the residual engine for the temporal operator. -/
def temporalCalls (allPartitions : Bool) (pb : Problem K P Q d) (u : Nat → K) : Calls Nat K :=
  (assemble temporalEngine allPartitions pb.cells).flatMap (onEventTemporal pb u)

end Verif.LocalOp.CCFV
