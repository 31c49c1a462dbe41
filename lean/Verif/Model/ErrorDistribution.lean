import Verif.Model.Adaptivity
/-
Model of the report of the distribution of the errors over bins.
Source: /repo/dune/pdelab/adaptivity/adaptivity.hh:964-1026. Exact arithmetic in an ordered field.
-/
namespace Verif.Adaptivity
variable {K : Type} [Field K] [LinearOrder K]

/-- adaptivity.hh:974-979  the variables of a bin: `target[k]`, `left[k]`, `right[k]`, `eta[k]`. -/
structure Bin (K : Type) where
  target : K
  left : K
  right : K
  eta : K

/-- adaptivity.hh:984-998 and 1010-1018  `sum[k]`: the loop over the elements. -/
def sumLe (x : List K) (eta : K) : K := x.foldl (fun s e => if e ≤ eta then s + e else s) 0

/-- adaptivity.hh:985-998 and 1011-1018  `count[k]`. -/
def countLe (x : List K) (eta : K) : Nat := x.foldl (fun c e => if e ≤ eta then c + 1 else c) 0

/-- adaptivity.hh:974-979  the bins at the start; `eta` is set in the first step. -/
def startBins (maxError : K) (bins : Nat) : List (Bin K) :=
  (List.range bins).map fun k => ⟨((k + 1 : Nat) : K) / (bins : K), 0, maxError * (1 + 1 / 100000000), 0⟩

/-- adaptivity.hh:982-1008  a step of the bisection for one bin. (The loops over the bins inside a step are independent of each other.) -/
def binStep (x : List K) (total : K) (b : Bin K) : Bin K :=
  let eta := 1 / 2 * (b.left + b.right)
  if sumLe x eta ≤ b.target * total then ⟨b.target, eta, b.right, eta⟩ else ⟨b.target, b.left, eta, eta⟩

/-- adaptivity.hh:980-1009  `n` steps for all bins. -/
def binSteps (x : List K) (total : K) : Nat → List (Bin K) → List (Bin K)
  | 0, bs => bs
  | n + 1, bs => binSteps x total n (bs.map (binStep x total))

/-- adaptivity.hh:1019-1025  the output: number of elements, largest error, total error, and for every bin the number of elements, the
threshold and the fraction of the total, which is no number (`none`) if the total is zero. -/
structure Report (K : Type) where
  elements : Nat
  maxError : K
  total : K
  rows : List (Nat × K × Option K)

/-- adaptivity.hh:966-1026  `error_distribution`. -/
def errorDistribution (x : List K) (bins : Nat) : Report K :=
  let total := oneNorm x
  let maxError := infNorm x
  let bs := binSteps x total 30 (startBins maxError bins)
  ⟨x.length, maxError, total,
    bs.map fun b => (countLe x b.eta, b.eta, if total = 0 then none else some (sumLe x b.eta / total))⟩

end Verif.Adaptivity
