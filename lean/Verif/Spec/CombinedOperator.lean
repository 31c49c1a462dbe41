import Verif.Model.CombinedOperator
import Mathlib.Algebra.Field.Defs
/-
Specification of sums of local operators.
-/
namespace Verif.CombinedOperator.Spec

variable {K : Type}

mutual
/-- All user-written operators in a (nested) sum, from left to right, each with its total weight and its flags. -/
def summands [One K] [Mul K] : LOp K → List (K × Nat × (Flag → Bool))
  | .base id flag _ => [(1, id, flag)]
  | .sum ops => summandsAll ops
  | .wsum ws ops => summandsWeighted ws ops
def summandsAll [One K] [Mul K] : List (LOp K) → List (K × Nat × (Flag → Bool))
  | [] => []
  | o :: os => summands o ++ summandsAll os
def summandsWeighted [One K] [Mul K] : List K → List (LOp K) → List (K × Nat × (Flag → Bool))
  | w :: ws, o :: os => (summands o).map (fun s => (w * s.1, s.2)) ++ summandsWeighted ws os
  | _, _ => []
end

/-- The weight of each weighted argument times a factor. -/
def scale [Mul K] (w : K) (args : List (Option K)) : List (Option K) := args.map fun a => a.map (· * w)

/-- The documented flag that controls a method (localoperator/flags.hh, lines 33-87: the `doAlpha*` flags also control the Jacobian methods). -/
def controls : Method → Flag
  | .patternVolume => .doPatternVolume
  | .patternVolumePostSkeleton => .doPatternVolumePostSkeleton
  | .patternSkeleton => .doPatternSkeleton
  | .patternBoundary => .doPatternBoundary
  | .alphaVolume | .jacobianVolume | .jacobianApplyVolume => .doAlphaVolume
  | .alphaVolumePostSkeleton | .jacobianVolumePostSkeleton | .jacobianApplyVolumePostSkeleton => .doAlphaVolumePostSkeleton
  | .alphaSkeleton | .jacobianSkeleton | .jacobianApplySkeleton => .doAlphaSkeleton
  | .alphaBoundary | .jacobianBoundary | .jacobianApplyBoundary => .doAlphaBoundary
  | .lambdaVolume => .doLambdaVolume
  | .lambdaVolumePostSkeleton => .doLambdaVolumePostSkeleton
  | .lambdaSkeleton => .doLambdaSkeleton
  | .lambdaBoundary => .doLambdaBoundary

/-- The calls that a method shall lead to: the same method of each summand that implements it, scaled by its weight, if this is not zero. -/
def expected [One K] [Zero K] [Mul K] [DecidableEq K] (o : LOp K) (m : Method) (args : List (Option K)) : List (Call K) :=
  ((summands o).filter fun s => s.2.2 (controls m) && decide (s.1 ≠ 0)).map fun s => ⟨s.2.1, m, scale s.1 args⟩

/-- The methods for which the dispatch in the code is right. -/
def sound : Method → Bool
  | .alphaBoundary | .jacobianApplyVolume | .jacobianApplyVolumePostSkeleton | .jacobianApplySkeleton | .jacobianApplyBoundary => false
  | _ => true

/-- All answers are the same. -/
def agree (answers : List Bool) : Prop := ∀ a, a ∈ answers → ∀ b, b ∈ answers → a = b

end Verif.CombinedOperator.Spec
