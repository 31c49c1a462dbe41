import Verif.Spec.Adaptivity
/-
Specification of a whole adaptive computation, in terms of the calls made and of the answers of the strategy only.
-/
namespace Verif.Adaptivity.Spec

variable {K : Type} [Field K] [LinearOrder K]

/-- The steps accepted in a history: the arguments of those calls of `evaluate_estimators` after which `acceptTimeStep()` is true. -/
def acceptedSteps : Strategy K → List (Event K) → List (Args K)
  | _, [] => []
  | s, .start :: es => acceptedSteps (step s .start) es
  | s, .evaluate p m a :: es =>
    (if (step s (.evaluate p m a)).accept = true then [a] else []) ++ acceptedSteps (step s (.evaluate p m a)) es

/-- The energy of a sequence of steps. -/
def energyOf (as : List (Args K)) : K := (as.map Args.energy).sum

/-- The length of the time interval covered by a sequence of steps. -/
def timeOf (as : List (Args K)) : K := (as.map Args.dt).sum

/-- All evaluations of the history use the adaptation mode and the given tolerance, minimal energy rate and (nonnegative) scaling. -/
def Uses (tol rate : K) (es : List (Event K)) : Prop :=
  ∀ e, e ∈ es → ∀ p m a, e = .evaluate p m a → p.noAdapt = false ∧ p.tol = tol ∧ p.minEnergyRate = rate ∧ 0 ≤ p.scaling

/-- The attempts for one time step as a driver makes them: each attempt uses the size the strategy asked for after the one before.
`data` are the parameters, level limit and estimators (with an irrelevant size) of the attempts; the result is the size of each attempt, and the
size asked for in the end. -/
def attempts (s : Strategy K) (dt : K) : List (Params K × Int × Args K) → List K
  | [] => [dt]
  | d :: ds =>
    dt :: attempts (step s (.evaluate d.1 d.2.1 { d.2.2 with dt := dt })) (step s (.evaluate d.1 d.2.1 { d.2.2 with dt := dt })).newDt ds

/-- All of these attempts are rejected. -/
def AllRejected (s : Strategy K) (dt : K) : List (Params K × Int × Args K) → Prop
  | [] => True
  | d :: ds =>
    (step s (.evaluate d.1 d.2.1 { d.2.2 with dt := dt })).accept = false ∧
    AllRejected (step s (.evaluate d.1 d.2.1 { d.2.2 with dt := dt })) (step s (.evaluate d.1 d.2.1 { d.2.2 with dt := dt })).newDt ds

end Verif.Adaptivity.Spec
