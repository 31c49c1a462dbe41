import Mathlib.Algebra.Field.Defs
import Mathlib.Order.Defs.LinearOrder
/-
Model of marking strategies and of the time adaptation strategy.

Source: /repo/dune/pdelab/adaptivity/adaptivity.hh.

Simplifications: exact arithmetic in an ordered field. The quotient 0/0 is a NaN, for which all comparisons are false. Output is left out.
-/
namespace Verif.Adaptivity

section
variable {K : Type} [Field K] [LinearOrder K]

/-- The absolute value. Source: a function of the standard library, used in adaptivity.hh:896, 947. -/
def absK (a : K) : K := if a < 0 then -a else a

/-- `one_norm()`. Source: a method of the vector, called in adaptivity.hh:870, 971. -/
def oneNorm (x : List K) : K := x.foldl (fun s e => s + absK e) 0

/-- `infinity_norm()`. Source: a method of the vector, called in adaptivity.hh:871, 921, 973. -/
def infNorm (x : List K) : K := x.foldl (fun m e => if m < absK e then absK e else m) 0

/-- Lines 880-888 (and 930-939): `sum_alpha`, with the summand `w error` for an error. -/
def sumAlpha (w : K → K) (x : List K) (eta : K) : K := x.foldl (fun s e => if eta ≤ e then s + w e else s) 0

/-- Lines 880-888 (and 930-939): `sum_beta`. -/
def sumBeta (w : K → K) (x : List K) (eta : K) : K := x.foldl (fun s e => if e < eta then s + w e else s) 0

/-- Line 896 (and 947): `abs(alpha-sum_alpha/total_error) <= 0.01`, false if the total error is zero.
Used for `bisect`, adaptivity/adaptivity.hh:876-905. -/
def close (alpha sum total : K) : Bool := decide (total ≠ 0 ∧ absK (alpha - sum / total) ≤ 1 / 100)

/-- The local variables of the bisection. Source: adaptivity.hh:872-875, 922-925. -/
structure Bisection (K : Type) where
  alphaLeft : K
  alphaRight : K
  betaLeft : K
  betaRight : K
  etaAlpha : K
  etaBeta : K

/-- The bisection loop, lines 876-905 (and 926-956), with the number of remaining steps. -/
def bisect (w : K → K) (x : List K) (alpha beta total : K) : Nat → Bisection K → Bisection K
  | 0, b => b
  | n + 1, b =>
    let etaAlpha := (b.alphaLeft + b.alphaRight) / 2
    let etaBeta := (b.betaLeft + b.betaRight) / 2
    let sa := sumAlpha w x etaAlpha
    let sb := sumBeta w x etaBeta
    if close alpha sa total && close beta sb total then { b with etaAlpha := etaAlpha, etaBeta := etaBeta }
    else
      bisect w x alpha beta total n
        { alphaLeft := if sa > alpha * total then etaAlpha else b.alphaLeft
          alphaRight := if sa > alpha * total then b.alphaRight else etaAlpha
          betaLeft := if sb > beta * total then b.betaLeft else etaBeta
          betaRight := if sb > beta * total then etaBeta else b.betaRight
          etaAlpha := etaAlpha
          etaBeta := etaBeta }

/-- `error_fraction`, lines 862-911: returns `eta_alpha` and `eta_beta`, which are zero before if not set. -/
def errorFraction (x : List K) (alpha beta : K) : K × K :=
  let b := bisect (fun e => e) x alpha beta (oneNorm x) 20 ⟨0, infNorm x, 0, infNorm x, 0, 0⟩
  (b.etaAlpha, b.etaBeta)

/-- `element_fraction`, lines 914-962. -/
def elementFraction (x : List K) (alpha beta : K) : K × K :=
  let b := bisect (fun _ => 1) x alpha beta (x.length : K) 20 ⟨0, infNorm x, 0, infNorm x, 0, 0⟩
  (b.etaAlpha, b.etaBeta)

/-- A leaf cell: its level and its error, which is the value of its first DOF. Source: the cells and `x_view[0]` of adaptivity.hh:1054, 1059. -/
structure Cell (K : Type) where
  level : Int
  error : K

/-- `mark_grid`, lines 1048-1065: the calls of `grid.mark(m, cell)`, with the position of the cell in the sequence, in order. -/
def markGrid (refine coarsen : K) (minLevel maxLevel : Int) : Nat → List (Cell K) → List (Int × Nat)
  | _, [] => []
  | i, c :: cs =>
    (if refine ≤ c.error ∧ c.level < maxLevel then [(1, i)] else []) ++
    ((if c.error ≤ coarsen ∧ minLevel < c.level then [(-1, i)] else []) ++ markGrid refine coarsen minLevel maxLevel (i + 1) cs)

/-- `mark_grid_for_coarsening`, lines 1091-1107. -/
def markForCoarsening (refine coarsen : K) : Nat → List (Cell K) → List (Int × Nat)
  | _, [] => []
  | i, c :: cs =>
    (if refine ≤ c.error then [(-1, i)] else []) ++
    ((if c.error ≤ coarsen then [(-1, i)] else []) ++ markForCoarsening refine coarsen (i + 1) cs)

/-- The parameters of TimeAdaptationStrategy, lines 1117-1129 and 1144. -/
structure Params (K : Type) where
  scaling : K
  coarsenLimit : K
  balanceLimit : K
  tol : K
  noAdapt : Bool
  refineWhileRefinement : K
  coarsenWhileRefinement : K
  coarsenWhileCoarsening : K
  decreaseFactor : K
  increaseFactor : K
  minEnergyRate : K
  verbose : Int

/-- Results and state variables of TimeAdaptationStrategy, lines 1132-1143. -/
structure Strategy (K : Type) where
  accept : Bool
  adaptDt : Bool
  adaptGrid : Bool
  newDt : K
  haveDecreased : Bool
  haveRefined : Bool
  accumulated : K
  marks : List (Int × Nat)

/-- The constructor, lines 1147-1159. -/
def Strategy.init : Strategy K := ⟨false, false, false, 1, false, false, 0, []⟩

/-- `startTimeStep`, lines 1262-1266. -/
def startTimeStep (s : Strategy K) : Strategy K := { s with haveDecreased := false, haveRefined := false }

/-- The arguments of `evaluate_estimators`: the leaf cells with their spatial errors, the temporal errors. Source: adaptivity.hh:1268-1269. -/
structure Args (K : Type) where
  dt : K
  cells : List (Cell K)
  etaTime : List K
  energy : K

/-- `a/b < c` for a quotient that may be a NaN. Source: comparisons of quotients in adaptivity.hh:1282-1283, 1317, 1326, 1346, 1359, 1369. -/
def quotLt (a b c : K) : Bool := decide (b ≠ 0 ∧ a / b < c)

/-- `a/b > c` for a quotient that may be a NaN. Source: comparisons of quotients in adaptivity.hh:1282-1283, 1317, 1326, 1346, 1359, 1369. -/
def quotGt (a b c : K) : Bool := decide (b ≠ 0 ∧ a / b > c)

/-- `evaluate_estimators`, lines 1268-1397. Line 1393 passes `verbose` as `min_level`; the default of `max_level` is `maxInt`. The calls of
`mark` are recorded in `marks`. -/
def evaluate (p : Params K) (maxInt : Int) (a : Args K) (s : Strategy K) : Strategy K :=
  let s := { s with accept := false, adaptDt := false, adaptGrid := false, newDt := a.dt, marks := [] }
  let etaSpace := a.cells.map Cell.error
  let spatial := oneNorm etaSpace
  let temporal := p.scaling * oneNorm a.etaTime
  let sum := spatial + temporal
  let allowed := p.tol * p.tol * (a.energy + p.minEnergyRate * a.dt)
  if p.noAdapt then { s with accept := true, accumulated := s.accumulated + sum }
  else if sum ≤ allowed then
    let s := { s with accept := true, accumulated := s.accumulated + sum }
    if sum < p.coarsenLimit * allowed then
      if quotLt temporal sum p.balanceLimit then { s with newDt := p.increaseFactor * a.dt, adaptDt := true }
      else
        let s := if quotGt spatial sum p.balanceLimit then { s with newDt := p.increaseFactor * a.dt, adaptDt := true } else s
        let eta := errorFraction etaSpace p.coarsenWhileCoarsening p.coarsenWhileCoarsening
        { s with marks := markForCoarsening eta.1 eta.2 0 a.cells, adaptGrid := true }
    else if quotLt temporal sum p.balanceLimit then { s with newDt := p.increaseFactor * a.dt, adaptDt := true }
    else s
  else if quotGt temporal sum (1 - p.balanceLimit) then
    { s with newDt := p.decreaseFactor * a.dt, adaptDt := true, haveDecreased := true }
  else
    let s :=
      if quotLt temporal sum p.balanceLimit then
        if !s.haveDecreased then { s with newDt := p.increaseFactor * a.dt, adaptDt := true } else s
      else { s with newDt := p.decreaseFactor * a.dt, adaptDt := true, haveDecreased := true }
    let eta := errorFraction etaSpace p.refineWhileRefinement p.coarsenWhileRefinement
    { s with marks := markGrid eta.1 eta.2 p.verbose maxInt 0 a.cells, adaptGrid := true }

/-- A use of the strategy: a new time step is started, or estimators are evaluated (with parameters that may be changed in between).
Source: the methods of the strategy, adaptivity.hh:1262-1266, 1268-1397. -/
inductive Event (K : Type) where
  | start
  | evaluate (p : Params K) (maxInt : Int) (a : Args K)

/-- One use. Source: the methods of the strategy, adaptivity.hh:1262-1266, 1268-1397. -/
def step (s : Strategy K) : Event K → Strategy K
  | .start => startTimeStep s
  | .evaluate p m a => evaluate p m a s

/-- A history of uses. Source: the methods of the strategy, adaptivity.hh:1262-1266, 1268-1397. -/
def run (s : Strategy K) (es : List (Event K)) : Strategy K := es.foldl step s

end

end Verif.Adaptivity
