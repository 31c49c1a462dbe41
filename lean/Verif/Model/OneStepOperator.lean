import Verif.Model.OneStepParams
import Mathlib.Algebra.Order.Group.Unbundled.Abs
import Mathlib.Algebra.Module.Defs
/-
Model of the instationary grid operator: assembly of the constant part of the residual, of the residual and of the Jacobian
from a spatial operator (0) and a temporal operator (1).
Sources: dune/pdelab/gridoperator/onestep.hh and dune/pdelab/gridoperator/onestep/{localassembler,enginebase,prestageengine,
residualengine,jacobianengine,jacobianresidualengine}.hh.

A local operator is given by its contribution to the residual (or Jacobian) for every kind of call and every cell or
intersection, as a function of time and solution. The calls come from the grid assembler in some order (`trace`).
The engines of the operators collect contributions in local buffers and add them to the global vector on unbind; here they are
added at once (simplification, the sums are the same).
-/
namespace Verif.OneStep

/-- The assembly methods of an engine (processor and coupling terms have no implementation in the default engines).
Used for `preStageOne`, onestep/prestageengine.hh:209-229. -/
inductive Kind where
  | uvVolume | vVolume | uvSkeleton | vSkeleton | uvBoundary | vBoundary | uvPost | vPost
deriving DecidableEq, Repr

/-- A local operator: contributions by kind, cell or intersection, time and solution. Used for `preStageOne`, onestep/prestageengine.hh:209-229. -/
abbrev Op (K X V : Type) := Kind → Nat → K → X → V

/-- State of a wrapped local assembler and its engine: `setTime`, `setWeight`, `setSolution`.
Used for `preStageOne`, onestep/prestageengine.hh:209-229. -/
structure Side (K X : Type) where
  time : K
  weight : K
  sol : X

/-- Both wrapped assemblers and the vectors they add to. Used for `preStageOne`, onestep/prestageengine.hh:209-229. -/
structure St (K X V : Type) where
  side0 : Side K X
  side1 : Side K X
  res0 : V
  res1 : V

/-- onestep/localassembler.hh:153  `DTAssemblingMode`. -/
inductive DTMode where
  | divideOperator1ByDT | multiplyOperator0ByDT | doNotAssembleDT
deriving DecidableEq, Repr

/-- The parameters set by `preStep`, `setMethod` and `setStage`. Used for `Setting.factor0`, onestep/localassembler.hh:116-135. -/
structure Setting (K : Type) where
  scheme : Scheme K
  time : K
  dt : K
  mode : DTMode
  stage : Nat

variable {K X V : Type} [Field K] [LinearOrder K] [AddCommGroup V] [Module K V]

/-- onestep/localassembler.hh:116-135  `dt_factor0`. -/
def Setting.factor0 (P : Setting K) : K :=
  match P.mode with
  | .divideOperator1ByDT => 1
  | .multiplyOperator0ByDT => P.dt
  | .doNotAssembleDT => 1

/-- onestep/localassembler.hh:116-135  `dt_factor1`. -/
def Setting.factor1 (P : Setting K) : K :=
  match P.mode with
  | .divideOperator1ByDT => 1 / P.dt
  | .multiplyOperator0ByDT => 1
  | .doNotAssembleDT => 1

/-- The threshold below which coefficients are ignored: `1E-6`. Used for `preStageOne`, onestep/prestageengine.hh:209-229. -/
def threshold : K := 1 / 1000000

/-- One call of an assembly method of the engine of operator 0: adds weight times the contribution.
Used for `preStageOne`, onestep/prestageengine.hh:209-229. -/
def St.call0 (st : St K X V) (R : Op K X V) (k : Kind) (e : Nat) : St K X V :=
  { st with res0 := st.res0 + st.side0.weight • R k e st.side0.time st.side0.sol }

/-- One call of an assembly method of the engine of operator 1; if both engines share the residual (`setConstResidual`,
`setResidual`), it adds to the same vector. Used for `preStageOne`, onestep/prestageengine.hh:209-229. -/
def St.call1 (st : St K X V) (shared : Bool) (R : Op K X V) (k : Kind) (e : Nat) : St K X V :=
  if shared then { st with res0 := st.res0 + st.side1.weight • R k e st.side1.time st.side1.sol }
  else { st with res1 := st.res1 + st.side1.weight • R k e st.side1.time st.side1.sol }

/-- onestep/prestageengine.hh:209-229 (and the same loop body in the other assembly methods)  one old stage `s`. -/
def preStageOne (P : Setting K) (shared : Bool) (R0 R1 : Op K X V) (x : Nat → X) (k : Kind) (e : Nat) (st : St K X V)
    (s : Nat) : St K X V :=
  let a := P.scheme.a P.stage s
  let b := P.scheme.b P.stage s
  let t := P.time + P.scheme.d s * P.dt
  let st := { st with side0 := { st.side0 with time := t }, side1 := { st.side1 with time := t } }
  let st := if |b| > threshold then
      St.call0 { st with side0 := { st.side0 with sol := x s, weight := b * P.factor0 } } R0 k e
    else st
  if |a| > threshold then
    St.call1 { st with side1 := { st.side1 with sol := x s, weight := a * P.factor1 } } shared R1 k e
  else st

/-- onestep/prestageengine.hh:204-533  an assembly method of the pre-stage engine: loop over the old stages. -/
def preStageCall (P : Setting K) (shared : Bool) (R0 R1 : Op K X V) (x : Nat → X) (st : St K X V) (c : Kind × Nat) :
    St K X V :=
  (List.range P.stage).foldl (preStageOne P shared R0 R1 x c.1 c.2) st

/-- onestep/prestageengine.hh:166-191 and onestep.hh:146-156  `preStage`: clear the constant residuals and assemble. -/
def preStage (P : Setting K) (shared : Bool) (R0 R1 : Op K X V) (x : Nat → X) (trace : List (Kind × Nat)) (st : St K X V) :
    St K X V :=
  trace.foldl (preStageCall P shared R0 R1 x) { st with res0 := 0, res1 := 0 }

/-- onestep/enginebase.hh:441-460  whether the call is forwarded to the engine of operator 1: the post-skeleton methods are not. -/
def forwards1 : Kind → Bool
  | .uvPost => false
  | .vPost => false
  | _ => true

/-- onestep/enginebase.hh:361-460  an assembly method of the base engine; operator 0 takes part only if the stage is implicit. -/
def baseCall (implicit : Bool) (R0 R1 : Op K X V) (st : St K X V) (c : Kind × Nat) : St K X V :=
  let st := if implicit then St.call0 st R0 c.1 c.2 else st
  if forwards1 c.1 then St.call1 st true R1 c.1 c.2 else st

/-- onestep/residualengine.hh:135-159  `preAssembly`, and `setSolution`: the state both engines start from. -/
def stageState (P : Setting K) (x : X) (r : V) : St K X V :=
  let t := P.time + P.scheme.d P.stage * P.dt
  ⟨⟨t, P.scheme.b P.stage P.stage * P.factor0, x⟩, ⟨t, P.factor1, x⟩, r, 0⟩

/-- onestep/residualengine.hh:135-176 and onestep.hh:158-167  `residual`: adds the residual of the current stage and the
constant part to `r`. (Constraints are modelled separately, see C17.) -/
def residual (P : Setting K) (R0 R1 : Op K X V) (const : V) (trace : List (Kind × Nat)) (x : X) (r : V) : V :=
  let implicit : Bool := decide (|P.scheme.b P.stage P.stage| > threshold)
  (trace.foldl (baseCall implicit R0 R1) (stageState P x r)).res0 + const

/-- onestep/jacobianengine.hh:89-125 and onestep.hh:169-178  `jacobian`: adds the Jacobian of the current stage to `A`. `J0`
and `J1` are the contributions of the operators' `jacobian_*` methods. -/
def jacobian (P : Setting K) (J0 J1 : Op K X V) (trace : List (Kind × Nat)) (x : X) (A : V) : V :=
  let implicit : Bool := decide (|P.scheme.b P.stage P.stage| > threshold)
  (trace.foldl (baseCall implicit J0 J1) (stageState P x A)).res0

/-- onestep/jacobianresidualengine.hh:298-402  an assembly method of the explicit engine: the constant part for both residuals,
then weight -1 and the Jacobian of operator 1 (with solution `x[stage]`). Only the volume methods set the time of the current
stage before (prestageengine.hh:156-162). The matrix is kept beside the state. -/
def explicitCall {M : Type} [AddCommGroup M] [Module K M] (P : Setting K) (R0 R1 : Op K X V) (J1 : Op K X M) (x : Nat → X)
    (stA : St K X V × M) (c : Kind × Nat) : St K X V × M :=
  let st := preStageCall P false R0 R1 x stA.1 c
  let st := { st with side0 := { st.side0 with weight := -1 }, side1 := { st.side1 with weight := -1 } }
  let st := if c.1 = .uvVolume ∨ c.1 = .vVolume then
      { st with side1 := { st.side1 with time := P.time + P.scheme.d P.stage * P.dt } }
    else st
  (st, stA.2 + st.side1.weight • J1 c.1 c.2 st.side1.time (x P.stage))

/-- onestep.hh:180-195  `explicit_jacobian_residual`: the matrix and the two residuals. -/
def explicitJacobianResidual {M : Type} [AddCommGroup M] [Module K M] (P : Setting K) (R0 R1 : Op K X V) (J1 : Op K X M)
    (x : Nat → X) (trace : List (Kind × Nat)) (st : St K X V) (A : M) : M × V × V :=
  let out := trace.foldl (explicitCall P R0 R1 J1 x) ({ st with res0 := 0, res1 := 0 }, A)
  (out.2, out.1.res0, out.1.res1)

end Verif.OneStep
