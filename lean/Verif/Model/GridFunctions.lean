import Mathlib.Algebra.Field.Defs
/-
Model of the adapters for arithmetic with grid functions (dune/pdelab/function/*.hh) and of integrating and probing grid functions
(dune/pdelab/common/functionutilities.hh).

Field elements stand for floating point numbers; a division by zero, which gives an infinity or NaN, is the outcome `none`.
-/
namespace Verif.GridFunctions

/-- The adapters hold references to their operands, so that an operand may occur in several places. `leaf id dimRange` is a grid function
that is no adapter; `id` is the identity of the object. The classes are ConstGridFunction (const.hh), ProductGridFunctionAdapter
(product.hh), MinusGridFunctionAdapter (minus.hh), DivisionGridFunctionAdapter (division.hh), InverseGridFunctionAdapter (inverse.hh),
SqrGridFunctionAdapter (sqr.hh), SqrtGridFunctionAdapter (sqrt.hh), ScalarScaledGridFunctionAdapter (scalarscaled.hh) and
SelectComponentGridFunctionAdapter (selectcomponent.hh). Used for `Expr.dimRange`, product.hh:26-30, 70-75, 113-118. -/
inductive Expr (K : Type) where
  | leaf (id : Nat) (dimRange : Nat)
  | const (val : List K)
  | product (gf1 gf2 : Expr K)
  | minus (gf1 gf2 : Expr K)
  | division (gf1 gf2 : Expr K)
  | inverse (gf : Expr K)
  | sqr (gf : Expr K)
  | sqrt (gf : Expr K)
  | scaled (factor : K) (gf : Expr K)
  | select (remap : List Nat) (gf : Expr K)

/-- The number of components of the values; `none` if a `static_assert` fails or a constructor throws an exception: product.hh:26-30,
70-75, 113-118, minus.hh:23-26, division.hh:21-22, inverse.hh:20-21, sqrt.hh:20-21, selectcomponent.hh:50-56. -/
def Expr.dimRange {K : Type} : Expr K → Option Nat
  | .leaf _ d => some d
  | .const val => some val.length
  | .product gf1 gf2 => do
    let d1 ← gf1.dimRange
    let d2 ← gf2.dimRange
    if d1 = 1 ∧ d2 ≠ 1 then some d2
    else if d1 ≠ 1 ∧ d2 = 1 then some d1
    else if d1 = d2 then some 1 else none
  | .minus gf1 gf2 => do
    let d1 ← gf1.dimRange
    let d2 ← gf2.dimRange
    if d1 = d2 then some d1 else none
  | .division gf1 gf2 => do
    let d1 ← gf1.dimRange
    let d2 ← gf2.dimRange
    if d2 = 1 then some d1 else none
  | .inverse gf => do
    let d ← gf.dimRange
    if d = 1 then some 1 else none
  | .sqr gf => do
    let _ ← gf.dimRange
    some 1
  | .sqrt gf => do
    let d ← gf.dimRange
    if d = 1 then some 1 else none
  | .scaled _ gf => gf.dimRange
  | .select remap gf => do
    let d ← gf.dimRange
    if remap.all fun r => decide (r < d) then some remap.length else none

/-- selectcomponent.hh:59-65  the index map of the constructor with the first index. -/
def consecutive (first dimR : Nat) : List Nat := (List.range dimR).map fun c => first + c

variable {K X T : Type} [Field K] [DecidableEq K]

/-- `y1 * y2` for two vectors. Used for `Expr.evaluate`, product.hh:48-56, 92-99, 113-125. -/
def dot : List K → List K → K
  | a :: as, b :: bs => a * b + dot as bs
  | _, _ => 0

/-- The methods `evaluate` at a point `x` (an element and a local coordinate): product.hh:48-56, 92-99, 113-125, minus.hh:41-48,
division.hh:37-44, inverse.hh:37-42, sqr.hh:46-53, sqrt.hh:37-43, scalarscaled.hh:35-40, selectcomponent.hh:80-88, const.hh:50-55.
`value id t x` is the value of the grid function `id` at time `t`, `time id` the time it has been set to. -/
def Expr.evaluate (value : Nat → T → X → List K) (root : K → K) (time : Nat → T) (x : X) : Expr K → Option (List K)
  | .leaf id _ => some (value id (time id) x)
  | .const val => some val
  | .product gf1 gf2 =>
    if gf1.dimRange ≠ some 1 ∧ gf2.dimRange = some 1 then do
      let y1 ← gf2.evaluate value root time x
      let y ← gf1.evaluate value root time x
      let f ← y1[0]?
      pure (y.map fun v => v * f)
    else if gf1.dimRange = some 1 ∧ gf2.dimRange ≠ some 1 then do
      let y1 ← gf1.evaluate value root time x
      let y ← gf2.evaluate value root time x
      let f ← y1[0]?
      pure (y.map fun v => v * f)
    else do
      let y1 ← gf1.evaluate value root time x
      let y2 ← gf2.evaluate value root time x
      pure [dot y1 y2]
  | .minus gf1 gf2 => do
    let y ← gf1.evaluate value root time x
    let y2 ← gf2.evaluate value root time x
    pure (List.zipWith (fun a b => a - b) y y2)
  | .division gf1 gf2 => do
    let y ← gf1.evaluate value root time x
    let y2 ← gf2.evaluate value root time x
    let f ← y2[0]?
    if f = 0 then none else pure (y.map fun v => v / f)
  | .inverse gf => do
    let y ← gf.evaluate value root time x
    let f ← y[0]?
    if f = 0 then none else pure [1 / f]
  | .sqr gf => do
    let y ← gf.evaluate value root time x
    pure [dot y y]
  | .sqrt gf => do
    let y ← gf.evaluate value root time x
    pure (y.set 0 (root (y.getD 0 0)))
  | .scaled factor gf => do
    let y ← gf.evaluate value root time x
    pure (y.map fun v => v * factor)
  | .select remap gf => do
    let y ← gf.evaluate value root time x
    remap.mapM fun r => y[r]?

/-- The methods `setTime`: product.hh:63-66, 106-109, minus.hh:55-58, division.hh:51-54, inverse.hh:49, sqr.hh:60, sqrt.hh:50,
scalarscaled.hh:47, selectcomponent.hh:94, common/function.hh:106-108. -/
def Expr.setTime (t : T) : Expr K → (Nat → T) → Nat → T
  | .leaf id _, time => fun i => if i = id then t else time i
  | .const _, time => time
  | .product gf1 gf2, time => gf2.setTime t (gf1.setTime t time)
  | .minus gf1 gf2, time => gf2.setTime t (gf1.setTime t time)
  | .division gf1 gf2, time => gf2.setTime t (gf1.setTime t time)
  | .inverse gf, time => gf.setTime t time
  | .sqr gf, time => gf.setTime t time
  | .sqrt gf, time => gf.setTime t time
  | .scaled _ gf, time => gf.setTime t time
  | .select _ gf, time => gf.setTime t time

/-! ### Integration -/

/-- An element of the grid view on a process, the points of the quadrature rule with their weights, and the integration element.
Used for `integrate`, functionutilities.hh:81-108. -/
structure Cell (L K : Type) where
  interior : Bool
  rule : List (L × K)
  integrationElement : L → K

/-- functionutilities.hh:81-108  `integrateGridFunction(gf,sum,qorder)` on a process for a function with values in `V`; `sum` is the value
of the argument before the call. -/
def integrate {L V : Type} [AddCommGroup V] [SMul K V] (cells : List (Cell L K)) (evaluate : Cell L K → L → V) (sum : V) : V :=
  let _ := sum
  (cells.filter fun c => c.interior).foldl
    (fun sum c => c.rule.foldl (fun sum q => sum + (q.2 * c.integrationElement q.1) • evaluate c q.1) sum) 0

/-! ### Probes -/

/-- What the hierarchic search finds on a process: the element and whether it is interior; `none` stands for a `GridError`.
Used for `candidate`, functionutilities.hh:242-254. -/
abbrev Found (E : Type) := Option (E × Bool)

/-- The state of a probe on a process: the members `evalRank`, `e` and `xl`. Used for `search`, functionutilities.hh:240-263. -/
structure Probe (E L : Type) where
  evalRank : Nat
  e : Option E
  xl : Option L

/-- functionutilities.hh:242-254  the rank with which a process enters the reduction. -/
def candidate {E : Type} (size myRank : Nat) : Found E → Nat
  | some (_, true) => myRank
  | _ => size

/-- functionutilities.hh:240-263  `hierarchic_search` on all processes: `comm().min` is the smallest of all values. `toLocal e` are the local
coordinates of the point in an element. -/
def search {E L : Type} (found : List (Found E)) (toLocal : E → L) : List (Probe E L) :=
  let size := found.length
  let evalRank := (found.zipIdx.map fun q => candidate size q.2 q.1).foldl min size
  found.zipIdx.map fun q =>
    let e := q.1.map Prod.fst
    if q.2 = evalRank then { evalRank := evalRank, e := e, xl := e.map toLocal } else { evalRank := evalRank, e := none, xl := none }

/-- What a process does in `eval_all`: nothing but writing a NaN, or taking part in a broadcast. Used for `action`, functionutilities.hh:203-212. -/
inductive Action (V : Type) where
  | nan
  | broadcast (root : Nat) (contribution : Option V)

/-- functionutilities.hh:203-212  `eval_all` on a process: `none` if the entity is not there. -/
def action {E L V : Type} (evaluate : Nat → E → L → V) (size myRank : Nat) (p : Probe E L) : Option (Action V) :=
  if p.evalRank = size then some .nan
  else if myRank = p.evalRank then do
    let e ← p.e
    let xl ← p.xl
    some (.broadcast p.evalRank (some (evaluate myRank e xl)))
  else some (.broadcast p.evalRank none)

/-- The results on all processes: the broadcast completes if all processes call it with the same root, which has a value to send.
Source: functionutilities.hh:203-212. -/
def evalAll {E L V : Type} (evaluate : Nat → E → L → V) (probes : List (Probe E L)) : Option (List (Option V)) := do
  let actions ← probes.zipIdx.mapM fun q => action evaluate probes.length q.2 q.1
  if actions.all fun a => match a with
    | .nan => true
    | .broadcast _ _ => false then some (actions.map fun _ => none)
  else do
    let root ← match actions.head? with
      | some (.broadcast root _) => some root
      | _ => none
    if actions.all fun a => match a with
      | .nan => false
      | .broadcast r _ => r == root then
      match actions[root]? with
      | some (.broadcast _ (some v)) => some (actions.map fun _ => some v)
      | _ => none
    else none

end Verif.GridFunctions
