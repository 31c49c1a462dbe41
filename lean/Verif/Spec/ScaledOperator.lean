import Verif.Model.ScaledOperator
/-
Specification of scaled local operators.
-/
namespace Verif.ScaledOperator.Spec

open CombinedOperator

variable {K : Type} [CommRing K]

/-- The operator `id` of level `n` is the user-written operator `u` scaled with `f`: `f` is the product of the factors. -/
inductive Scales (h : Heap K) : Nat → Nat → K → Nat → Prop
  | user (u : Nat) : Scales h 0 u 1 u
  | scaled {n id b u : Nat} {f : K} : (h (n + 1) id).bp = some b → Scales h n b f u →
      Scales h (n + 1) id ((h (n + 1) id).factor * f) u

/-- The value of entry `e` of argument `a` after the calls in the log: each call adds the contribution of the operator multiplied with the weight of
the argument. -/
def accumulated {ι : Type} (contribution : Nat → Method → Nat → ι → K) : List (Call K) → (Nat → ι → K) → Nat → ι → K
  | [], r => r
  | c :: cs, r => accumulated contribution cs fun a e => r a e + ((c.weights.getD a none).getD 0) * contribution c.id c.method a e

/-- The entries of a matrix that are announced by calls of `pattern_*` or written by calls of `jacobian_*`. -/
def touched {ι : Type} (entries : Nat → Method → List ι) (log : List (Call K)) (e : ι) : Prop := ∃ c ∈ log, e ∈ entries c.id c.method

end Verif.ScaledOperator.Spec
