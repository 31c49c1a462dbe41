import Verif.Model.CombinedOperator
import Mathlib.Algebra.Ring.Defs
/-
Model of ScaledLocalOperator.

Source: /repo/dune/pdelab/localoperator/scaled.hh.

Simplifications: as in the model of combined operators, a call of a method of a user-written operator is recorded in a log with the weights of its
arguments (`none` for an argument without a weight, like a local pattern). The class of the backend is a template parameter, so that operators
have a level: level 0 are the user-written ones, and the backend of an operator of level `n+1` is of level `n`. Objects of one level are numbered.
-/
namespace Verif.ScaledOperator

open CombinedOperator

/-- scaled.hh:57-58  the members of a ScaledLocalOperator; `none` is the null pointer. -/
structure Scaled (K : Type) where
  factor : K
  bp : Option Nat

/-- The objects of class ScaledLocalOperator, by level and number. Used for `call`, scaled.hh:165-916. -/
abbrev Heap (K : Type) := Nat → Nat → Scaled K

/-- scaled.hh:165-916  the method of the backend that a method calls. -/
def backendMethod : Method → Method
  | .patternVolume => .patternVolume
  | .patternVolumePostSkeleton => .patternVolumePostSkeleton
  | .patternSkeleton => .patternSkeleton
  | .patternBoundary => .patternBoundary
  | .alphaVolume => .alphaVolume
  | .alphaVolumePostSkeleton => .alphaVolumePostSkeleton
  | .alphaSkeleton => .alphaSkeleton
  | .alphaBoundary => .alphaBoundary
  | .lambdaVolume => .lambdaVolume
  | .lambdaVolumePostSkeleton => .lambdaVolumePostSkeleton
  | .lambdaSkeleton => .lambdaSkeleton
  | .lambdaBoundary => .lambdaBoundary
  | .jacobianApplyVolume => .jacobianApplyVolume
  | .jacobianApplyVolumePostSkeleton => .jacobianApplyVolumePostSkeleton
  | .jacobianApplySkeleton => .jacobianApplySkeleton
  | .jacobianApplyBoundary => .jacobianApplyBoundary
  | .jacobianVolume => .jacobianVolume
  | .jacobianVolumePostSkeleton => .jacobianVolumePostSkeleton
  | .jacobianSkeleton => .jacobianSkeleton
  | .jacobianBoundary => .jacobianBoundary

variable {K : Type} [CommRing K] [DecidableEq K]

/-- scaled.hh:165-916  a call of a method: with a factor that is not zero, the method of the backend is called with
`weightedAccumulationView(factor)` (localvector.hh:47-52, localmatrix.hh:45-50: a view whose weight is the product) of each argument that is
accumulated to. `none`: the null pointer is dereferenced. -/
def call (h : Heap K) : Nat → Nat → Method → List (Option K) → Option (List (Call K))
  | 0, id, m, ws => some [⟨id, m, ws⟩]
  | n + 1, id, m, ws =>
    if (h (n + 1) id).factor ≠ 0 then
      match (h (n + 1) id).bp with
      | none => none
      | some b => call h n b (backendMethod m) (ws.map fun w => w.map fun w => (h (n + 1) id).factor * w)
    else some []

/-- The instationary methods without result. Used for `instationary`, scaled.hh:936, 960-961, 970, 986 and 995. -/
inductive Inst (T : Type) where
  | setTime (t : T)
  | preStep (time dt : T) (stages : Nat)
  | postStep
  | preStage (time : T) (r : Nat)
  | postStage
  deriving DecidableEq

/-- scaled.hh:936, 960-961, 970, 986 and 995  an instationary method calls the method of the backend with the same arguments. The result is the
user-written operator that is called, with the call. -/
def instationary {T : Type} (h : Heap K) : Nat → Nat → Inst T → Option (Nat × Inst T)
  | 0, id, i => some (id, i)
  | n + 1, id, i =>
    match (h (n + 1) id).bp with
    | none => none
    | some b => instationary h n b i

/-- scaled.hh:942, 992 and 1008-1009  `getTime`, `getStage` and `suggestTimestep` return what the backend returns; `answer` are the answers of the
user-written operators. -/
def query {A : Type} (h : Heap K) (answer : Nat → A) : Nat → Nat → Option A
  | 0, id => some (answer id)
  | n + 1, id =>
    match (h (n + 1) id).bp with
    | none => none
    | some b => query h answer n b

/-- Changes of an operator. Used for `step`, scaled.hh:71-88. -/
inductive Op (K : Type) where
  /-- scaled.hh:83  `setFactor`. -/
  | setFactor (level id : Nat) (factor : K)
  /-- scaled.hh:88  `setBackend`. -/
  | setBackend (level id backend : Nat)
  /-- scaled.hh:71-73  construction with a backend. -/
  | construct (level id backend : Nat) (factor : K)
  /-- scaled.hh:80  construction without a backend. -/
  | constructEmpty (level id : Nat) (factor : K)

/-- Replace an object. Used for `step`, scaled.hh:71-88. -/
def put (h : Heap K) (level id : Nat) (o : Scaled K) : Heap K := fun l i => if l = level ∧ i = id then o else h l i

/-- scaled.hh:71-88. -/
def step (h : Heap K) : Op K → Heap K
  | .setFactor l i f => put h l i { h l i with factor := f }
  | .setBackend l i b => put h l i { h l i with bp := some b }
  | .construct l i b f => put h l i ⟨f, some b⟩
  | .constructEmpty l i f => put h l i ⟨f, none⟩

/-- The flags of a local operator (flags.hh). Used for `flagValue`, scaled.hh:102-146. -/
inductive FlagName where
  | doSkipEntity | doSkipIntersection | isLinear | doSkeletonTwoSided | other (f : Flag)
  deriving DecidableEq

/-- scaled.hh:102-146  the flags the class has: those of the backend (`none`: there is no such member). -/
def flagValue (backend : FlagName → Bool) : FlagName → Option Bool
  | .doSkipEntity => none
  | .doSkipIntersection => none
  | .isLinear => none
  | .doSkeletonTwoSided => some (backend .doSkeletonTwoSided)
  | .other f => some (backend (.other f))

/-- gridoperator/default/localassembler.hh:117-146 and 239-252  the flags the local assembler of a grid operator uses: all of them. -/
def usedByAssembler : FlagName → Bool := fun _ => true

end Verif.ScaledOperator
