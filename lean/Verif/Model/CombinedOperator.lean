/-
Model of sums and weighted sums of local operators.

Sources: /repo/dune/pdelab/localoperator/combinedoperator.hh, sum.hh, weightedsum.hh, callswitch.hh.

Simplifications: a call of a method of a (user-written) local operator is recorded in a log together with the weights of its arguments at that
time; what the method then does with its arguments is up to the operator. C++ code that is ill-formed when the method is instantiated is the
outcome `none`.
-/
namespace Verif.CombinedOperator

/-- The methods of a local operator that are called during assembly (localoperator/interface.hh). Source: localoperator/interface.hh:165-980. -/
inductive Method where
  | patternVolume | patternVolumePostSkeleton | patternSkeleton | patternBoundary
  | alphaVolume | alphaVolumePostSkeleton | alphaSkeleton | alphaBoundary
  | lambdaVolume | lambdaVolumePostSkeleton | lambdaSkeleton | lambdaBoundary
  | jacobianApplyVolume | jacobianApplyVolumePostSkeleton | jacobianApplySkeleton | jacobianApplyBoundary
  | jacobianVolume | jacobianVolumePostSkeleton | jacobianSkeleton | jacobianBoundary
  deriving DecidableEq, Repr

/-- The flags that switch methods on (combinedoperator.hh, lines 103-157). -/
inductive Flag where
  | doPatternVolume | doPatternVolumePostSkeleton | doPatternSkeleton | doPatternBoundary
  | doAlphaVolume | doAlphaVolumePostSkeleton | doAlphaSkeleton | doAlphaBoundary
  | doLambdaVolume | doLambdaVolumePostSkeleton | doLambdaSkeleton | doLambdaBoundary
  deriving DecidableEq, Repr

/-- The flag by which the lambdas in callswitch.hh, lines 426-571, decide whether to call a method. -/
def switchFlag : Method → Flag
  | .patternVolume => .doPatternVolume
  | .patternVolumePostSkeleton => .doPatternVolumePostSkeleton
  | .patternSkeleton => .doPatternSkeleton
  | .patternBoundary => .doPatternBoundary
  | .alphaVolume => .doAlphaVolume
  | .alphaVolumePostSkeleton => .doAlphaVolumePostSkeleton
  | .alphaSkeleton => .doAlphaSkeleton
  | .alphaBoundary => .doAlphaBoundary
  | .lambdaVolume => .doLambdaVolume
  | .lambdaVolumePostSkeleton => .doLambdaVolumePostSkeleton
  | .lambdaSkeleton => .doLambdaSkeleton
  | .lambdaBoundary => .doLambdaBoundary
  | .jacobianVolume => .doAlphaVolume
  | .jacobianVolumePostSkeleton => .doAlphaVolumePostSkeleton
  | .jacobianSkeleton => .doAlphaSkeleton
  | .jacobianBoundary => .doAlphaBoundary
  | .jacobianApplyVolume => .doAlphaVolume
  | .jacobianApplyVolumePostSkeleton => .doAlphaVolumePostSkeleton
  | .jacobianApplySkeleton => .doAlphaSkeleton
  | .jacobianApplyBoundary => .doAlphaBoundary

/-- The number of arguments after `lop` that the functions of LocalAssemblerCallSwitchHelper take (callswitch.hh, lines 68-189). -/
def switchArity : Method → Nat
  | .patternVolume | .patternVolumePostSkeleton | .patternBoundary => 3
  | .patternSkeleton => 6
  | .alphaVolume | .alphaVolumePostSkeleton | .alphaBoundary => 5
  | .alphaSkeleton => 9
  | .lambdaVolume | .lambdaVolumePostSkeleton | .lambdaBoundary => 3
  | .lambdaSkeleton => 5
  | .jacobianApplyVolume | .jacobianApplyVolumePostSkeleton | .jacobianApplyBoundary => 6
  | .jacobianApplySkeleton => 11
  | .jacobianVolume | .jacobianVolumePostSkeleton | .jacobianBoundary => 5
  | .jacobianSkeleton => 11

/-- The lambda that a method of the combined operator applies to the summands, and the number of arguments it passes (combinedoperator.hh,
lines 228-557). Line 353: `alpha_boundary` applies `alphaVolumePostSkeleton`. -/
def combinedCall : Method → Method × Nat
  | .patternVolume => (.patternVolume, 3)
  | .patternVolumePostSkeleton => (.patternVolumePostSkeleton, 3)
  | .patternSkeleton => (.patternSkeleton, 6)
  | .patternBoundary => (.patternBoundary, 3)
  | .alphaVolume => (.alphaVolume, 5)
  | .alphaVolumePostSkeleton => (.alphaVolumePostSkeleton, 5)
  | .alphaSkeleton => (.alphaSkeleton, 9)
  | .alphaBoundary => (.alphaVolumePostSkeleton, 5)
  | .lambdaVolume => (.lambdaVolume, 3)
  | .lambdaVolumePostSkeleton => (.lambdaVolumePostSkeleton, 3)
  | .lambdaSkeleton => (.lambdaSkeleton, 5)
  | .lambdaBoundary => (.lambdaBoundary, 3)
  | .jacobianApplyVolume => (.jacobianApplyVolume, 5)
  | .jacobianApplyVolumePostSkeleton => (.jacobianApplyVolumePostSkeleton, 5)
  | .jacobianApplySkeleton => (.jacobianApplySkeleton, 9)
  | .jacobianApplyBoundary => (.jacobianApplyBoundary, 5)
  | .jacobianVolume => (.jacobianVolume, 5)
  | .jacobianVolumePostSkeleton => (.jacobianVolumePostSkeleton, 5)
  | .jacobianSkeleton => (.jacobianSkeleton, 11)
  | .jacobianBoundary => (.jacobianBoundary, 5)

/-- Local operators: written by the user (with a number to identify them), InstationarySumLocalOperator (sum.hh) and WeightedSumLocalOperator
(weightedsum.hh, `weights` and `lops`). The latter two may be nested. Source: sum.hh:24-96, weightedsum.hh:26-179. -/
inductive LOp (K : Type) where
  | base (id : Nat) (flag : Flag → Bool) (twoSided : Bool)
  | sum (ops : List (LOp K))
  | wsum (weights : List K) (ops : List (LOp K))

/-- A recorded call of a method of a user-written operator, with the weights of the arguments (`none` for arguments without weight).
Source: localoperator/interface.hh:165-980. -/
structure Call (K : Type) where
  id : Nat
  method : Method
  weights : List (Option K)
  deriving DecidableEq

/-- Arguments of the current call and the log. Source: the arguments handed on by weightedsum.hh:39-95. -/
structure St (K : Type) where
  weights : List (Option K)
  log : List (Call K)
  deriving DecidableEq

variable {K : Type}

mutual
/-- The flags of combined operators are disjunctions (combinedoperator.hh, lines 103-157). -/
def hasFlag : LOp K → Flag → Bool
  | .base _ flag _, f => flag f
  | .sum ops, f => anyFlag ops f
  | .wsum _ ops, f => anyFlag ops f
/-- `std::disjunction_v<...>`. Source: combinedoperator.hh:92-161. -/
def anyFlag : List (LOp K) → Flag → Bool
  | [], _ => false
  | o :: os, f => hasFlag o f || anyFlag os f
end

mutual
/-- `doSkeletonTwoSided`, combinedoperator.hh lines 160-161. -/
def twoSided : LOp K → Bool
  | .base _ _ t => t
  | .sum ops => anyTwoSided ops
  | .wsum _ ops => anyTwoSided ops
/-- `disjunction_v<TwoSidedSkeleton<Args>...>`, with lines 84-86. -/
def anyTwoSided : List (LOp K) → Bool
  | [] => false
  | o :: os => ((hasFlag o .doAlphaSkeleton || hasFlag o .doLambdaSkeleton) && twoSided o) || anyTwoSided os
end

/-- `OneSidedSkeleton`, lines 81-83. -/
def oneSidedSkeleton (o : LOp K) : Bool := (hasFlag o .doAlphaSkeleton || hasFlag o .doLambdaSkeleton) && !twoSided o

/-- `TwoSidedSkeleton`, lines 84-86. -/
def twoSidedSkeleton (o : LOp K) : Bool := (hasFlag o .doAlphaSkeleton || hasFlag o .doLambdaSkeleton) && twoSided o

/-- The condition of the static_assert in lines 162-165. -/
def accepted (ops : List (LOp K)) : Bool := !(ops.all oneSidedSkeleton && ops.all twoSidedSkeleton)

/-- `skip_entity`, combinedoperator.hh lines 180-194, and `skip_intersection`, lines 197-212, for the answers of the summands: `none` is the
RangeError. (As written both call the non-const `getSummand` in a const method; modelled as if this was allowed.) -/
def skip (answers : List Bool) : Option Bool :=
  let different := answers.foldl (fun d a => Bool.xor d a) false
  if different then none else answers.head?

variable [DecidableEq K] [Zero K] [Mul K]

/-- `getWeights`, weightedsum.hh lines 48-59 with the initialisation in line 78. -/
def getWeights (args : List (Option K)) : List K := args.map fun a => a.getD 0

/-- `setWeights`, weightedsum.hh lines 61-72. -/
def setWeights (ws : List K) (args : List (Option K)) : List (Option K) :=
  List.zipWith (fun w (a : Option K) => match a with | none => none | some _ => some w) ws args

mutual
/-- The call of a method of a local operator. Source: the methods of combinedoperator.hh and of callswitch.hh:426-571. -/
def call : LOp K → Method → St K → Option (St K)
  | .base id _ _, m, st => some { st with log := st.log ++ [⟨id, m, st.weights⟩] }
  | .sum ops, m, st =>
    let (m', n) := combinedCall m
    if n = switchArity m' then callAll ops m' st else none
  | .wsum ws ops, m, st =>
    let (m', n) := combinedCall m
    if n = switchArity m' then
      let aweights := getWeights st.weights
      match callWeighted ops ws aweights m' st with
      | none => none
      | some st => some { st with weights := setWeights aweights st.weights }
    else none
/-- sum.hh, lines 28-33, with the switch of callswitch.hh. -/
def callAll : List (LOp K) → Method → St K → Option (St K)
  | [], _, st => some st
  | o :: os, m, st =>
    match (if hasFlag o (switchFlag m) then call o m st else some st) with
    | none => none
    | some st => callAll os m st
/-- weightedsum.hh, lines 81-89, with the switch of callswitch.hh. `current_weights *= weights[i]` multiplies from the right. -/
def callWeighted : List (LOp K) → List K → List K → Method → St K → Option (St K)
  | o :: os, w :: ws, aweights, m, st =>
    match (if w = 0 then some st
      else
        let st := { st with weights := setWeights (aweights.map (· * w)) st.weights }
        if hasFlag o (switchFlag m) then call o m st else some st) with
    | none => none
    | some st => callWeighted os ws aweights m st
  | _, _, _, _, st => some st
end

/-- The call of a method of a local operator by the assembler, which goes through LocalAssemblerCallSwitch as well (callswitch.hh, lines
405-407). -/
def invoke (o : LOp K) (m : Method) (st : St K) : Option (St K) :=
  if hasFlag o (switchFlag m) then call o m st else some st

end Verif.CombinedOperator
