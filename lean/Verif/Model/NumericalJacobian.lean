import Verif.Model.LocalContainers
import Mathlib.Algebra.Field.Defs
import Mathlib.Order.Defs.LinearOrder
/-
Model of the numerical Jacobians and of residuals based on Jacobians.

Sources: dune/pdelab/localoperator/numericaljacobian.hh, dune/pdelab/localoperator/numericaljacobianapply.hh,
dune/pdelab/localoperator/numericalnonlinearjacobianapply.hh, dune/pdelab/localoperator/numericalresidual.hh (under /repo).

Simplifications: exact arithmetic in an ordered field. A local function space is the list of its local indices `lfs.localIndex(i)`,
`i < lfs.size()`. The method of the local operator is given by its calls of `accumulate` on the residual or matrix (positions in the
container and values), as a function of the coefficients. Access out of the bounds of a container is `none`.
-/
namespace Verif.NumericalJacobian

open LocalContainers

variable {K : Type} [Field K]

/-- The calls of `accumulate` of a local operator on a view of a residual with weight `w`, localvector.hh:77-83. -/
def accumulate (w : K) (r : List K) (calls : List (Nat × K)) : Option (List K) := calls.foldlM (fun r c => addAt r c.1 (w * c.2)) r

/-- `getEntry(i,j) += v`, localmatrix.hh:75-97 and 425-452. -/
def matAdd (m : LocalMatrix K) (i j : Nat) (v : K) : Option (LocalMatrix K) := (m.get? i j).map fun o => m.set i j (o + v)

section
variable [LinearOrder K]

/-- `epsilon*(1.0+std::abs(u(lfsu,j)))`, numericaljacobian.hh:67. -/
def delta (eps uj : K) : K := eps * (1 + (if 0 ≤ uj then uj else -uj))

/-- The loop over the columns, e.g. numericaljacobian.hh:67-76: `eval` evaluates the local operator (with fresh residuals) at the disturbed
coefficients, `col` stores the column. The coefficient is restored from `x`. -/
def jiggle {R M : Type} (eps : K) (lfsu : List Nat) (x : List K) (eval : List K → Option R) (col : Nat → K → R → M → Option M) (u : List K)
    (m : M) : Option (List K × M) :=
  lfsu.foldlM
    (fun (s : List K × M) j => do
      let uj ← s.1[j]?
      let d := delta eps uj
      let u := s.1.set j (uj + d)
      let up ← eval u
      let m ← col j d up s.2
      let xj ← x[j]?
      pure (u.set j xj, m))
    (u, m)

/-- The loop over the rows of a column, numericaljacobian.hh:70-71: `factor` is one for `rawAccumulate` and the weight of the matrix for
`accumulate`. -/
def matColumn (factor : K) (lfsv : List Nat) (down : List K) (j : Nat) (d : K) (up : List K) (m : LocalMatrix K) : Option (LocalMatrix K) :=
  lfsv.foldlM
    (fun m i => do
      let a ← up[i]?
      let b ← down[i]?
      matAdd m i j (factor * ((a - b) / d)))
    m

/-- `jacobian_volume`, numericaljacobian.hh:43-77, `jacobian_volume_post_skeleton`, numericaljacobian.hh:107-140, and `jacobian_boundary`,
numericaljacobian.hh:264-301, with `w` the weight of the matrix. -/
def jacobianOne (eps : K) (alpha : List K → List (Nat × K)) (lfsu lfsv : List Nat) (x : List K) (w : K) (mat : LocalMatrix K) :
    Option (LocalMatrix K) := do
  let rows := mat.rows
  let down ← accumulate w (List.replicate rows 0) (alpha x)
  let s ← jiggle eps lfsu x (fun u => accumulate w (List.replicate rows 0) (alpha u)) (matColumn 1 lfsv down) x mat
  pure s.2

/-- The four matrices of a skeleton term. Used for `jacobianSkeleton`, numericaljacobian.hh:168-234. -/
structure Four (A : Type) where
  ss : A
  sn : A
  ns : A
  nn : A

/-- The calls of `alpha_skeleton` with views of weight one on residuals of the given sizes, numericaljacobian.hh:188-199. -/
def skeletonEval (alpha : List K → List K → List (Nat × K) × List (Nat × K)) (sizeS sizeN : Nat) (us un : List K) :
    Option (List K × List K) := do
  let rs ← accumulate 1 (List.replicate sizeS 0) (alpha us un).1
  let rn ← accumulate 1 (List.replicate sizeN 0) (alpha us un).2
  pure (rs, rn)

/-- `jacobian_skeleton`, numericaljacobian.hh:168-234, with `w` the weights of the matrices. -/
def jacobianSkeleton (eps : K) (alpha : List K → List K → List (Nat × K) × List (Nat × K)) (lfsuS lfsvS lfsuN lfsvN : List Nat)
    (xS xN : List K) (w : Four K) (mat : Four (LocalMatrix K)) : Option (Four (LocalMatrix K)) := do
  let rowsS := mat.ss.rows
  let rowsN := mat.nn.rows
  let down ← skeletonEval alpha rowsS rowsN xS xN
  let s ← jiggle eps lfsuS xS (fun u => skeletonEval alpha rowsS rowsN u xN)
    (fun j d up (m : Four (LocalMatrix K)) => do
      let ss ← matColumn w.ss lfsvS down.1 j d up.1 m.ss
      let ns ← matColumn w.ns lfsvN down.2 j d up.2 m.ns
      pure { m with ss := ss, ns := ns }) xS mat
  let uS := s.1
  let s ← jiggle eps lfsuN xN (fun u => skeletonEval alpha rowsS rowsN uS u)
    (fun j d up (m : Four (LocalMatrix K)) => do
      let sn ← matColumn w.sn lfsvS down.1 j d up.1 m.sn
      let nn ← matColumn w.nn lfsvN down.2 j d up.2 m.nn
      pure { m with sn := sn, nn := nn }) xN s.2
  pure s.2

/-- The loop over the rows in the application, numericaljacobianapply.hh:81-82: `z` is the vector the column is multiplied by. -/
def vecColumn (factor : K) (lfsv : List Nat) (down z : List K) (j : Nat) (d : K) (up y : List K) : Option (List K) :=
  lfsv.foldlM
    (fun y i => do
      let a ← up[i]?
      let b ← down[i]?
      let zj ← z[j]?
      addAt y i (factor * ((a - b) / d * zj)))
    y

/-- The common part of `jacobian_apply_volume`, `jacobian_apply_volume_post_skeleton` and `jacobian_apply_boundary`: `view` is the weight of
the views on the local residuals. Used for `applyVolume`, numericalnonlinearjacobianapply.hh:45-76 and 108-139. -/
def applyOne (eps : K) (alpha : List K → List (Nat × K)) (lfsu lfsv : List Nat) (x z : List K) (view : K) (y : List K) : Option (List K) := do
  let size := y.length
  let down ← accumulate view (List.replicate size 0) (alpha x)
  let s ← jiggle eps lfsu x (fun u => accumulate view (List.replicate size 0) (alpha u)) (vecColumn 1 lfsv down z) x y
  pure s.2

/-- Nonlinear `jacobian_apply_volume` and `jacobian_apply_volume_post_skeleton` with the weight of `y`,
numericalnonlinearjacobianapply.hh:45-76 and 108-139. -/
def applyVolume (eps : K) (alpha : List K → List (Nat × K)) (lfsu lfsv : List Nat) (x z : List K) (w : K) (y : List K) : Option (List K) :=
  applyOne eps alpha lfsu lfsv x z w y

/-- Linear `jacobian_apply_volume` and `jacobian_apply_volume_post_skeleton`, numericaljacobianapply.hh:52-85 and 127-160. -/
def applyVolumeLinear (eps : K) (alpha : List K → List (Nat × K)) (lfsu lfsv : List Nat) (x : List K) (w : K) (y : List K) : Option (List K) :=
  applyOne eps alpha lfsu lfsv x x w y

/-- Nonlinear `jacobian_apply_boundary`, numericalnonlinearjacobianapply.hh:260-293: the views have weight one, the values are accumulated
raw, and the columns are multiplied by `x`. -/
def applyBoundary (eps : K) (alpha : List K → List (Nat × K)) (lfsu lfsv : List Nat) (x _z : List K) (_w : K) (y : List K) : Option (List K) :=
  applyOne eps alpha lfsu lfsv x x 1 y

/-- Linear `jacobian_apply_boundary`, numericaljacobianapply.hh:305-341. -/
def applyBoundaryLinear (eps : K) (alpha : List K → List (Nat × K)) (lfsu lfsv : List Nat) (x : List K) (_w : K) (y : List K) :
    Option (List K) :=
  applyOne eps alpha lfsu lfsv x x 1 y

/-- The common part of both versions of `jacobian_apply_skeleton`: `zSs`, `zSn` (`zNs`, `zNn`) are the vectors the columns of the
coefficients inside (outside) are multiplied by for the residual inside and outside; `wS` and `wN` are the weights of the vectors.
Used for `applySkeleton`, numericalnonlinearjacobianapply.hh:169-230. -/
def applySkeletonWith (eps : K) (alpha : List K → List K → List (Nat × K) × List (Nat × K)) (lfsuS lfsvS lfsuN lfsvN : List Nat)
    (xS xN zSs zSn zNs zNn : List K) (wS wN : K) (yS yN : List K) : Option (List K × List K) := do
  let sizeS := yS.length
  let sizeN := yN.length
  let down ← skeletonEval alpha sizeS sizeN xS xN
  let s ← jiggle eps lfsuS xS (fun u => skeletonEval alpha sizeS sizeN u xN)
    (fun j d up (y : List K × List K) => do
      let a ← vecColumn wS lfsvS down.1 zSs j d up.1 y.1
      let b ← vecColumn wN lfsvN down.2 zSn j d up.2 y.2
      pure (a, b)) xS (yS, yN)
  let uS := s.1
  let s ← jiggle eps lfsuN xN (fun u => skeletonEval alpha sizeS sizeN uS u)
    (fun j d up (y : List K × List K) => do
      let a ← vecColumn wS lfsvS down.1 zNs j d up.1 y.1
      let b ← vecColumn wN lfsvN down.2 zNn j d up.2 y.2
      pure (a, b)) xN s.2
  pure s.2

/-- Nonlinear `jacobian_apply_skeleton`, numericalnonlinearjacobianapply.hh:169-230: the residual outside is accumulated with `x` (lines 209
and 225). -/
def applySkeleton (eps : K) (alpha : List K → List K → List (Nat × K) × List (Nat × K)) (lfsuS lfsvS lfsuN lfsvN : List Nat)
    (xS zS xN zN : List K) (wS wN : K) (yS yN : List K) : Option (List K × List K) :=
  applySkeletonWith eps alpha lfsuS lfsvS lfsuN lfsvN xS xN zS xS zN xN wS wN yS yN

/-- Linear `jacobian_apply_skeleton`, numericaljacobianapply.hh:200-265. -/
def applySkeletonLinear (eps : K) (alpha : List K → List K → List (Nat × K) × List (Nat × K)) (lfsuS lfsvS lfsuN lfsvN : List Nat)
    (xS xN : List K) (wS wN : K) (yS yN : List K) : Option (List K × List K) :=
  applySkeletonWith eps alpha lfsuS lfsvS lfsuN lfsvN xS xN xS xS xN xN wS wN yS yN

end

/-! ### Residuals based on Jacobians -/

/-- The calls of `accumulate` of a local operator on a view of a matrix with weight one. Used for `alphaVolume`, numericalresidual.hh:40-55. -/
def matAccumulate (m : LocalMatrix K) (calls : List ((Nat × Nat) × K)) : Option (LocalMatrix K) :=
  calls.foldlM (fun m c => matAdd m c.1.1 c.1.2 (1 * c.2)) m

/-- `alpha_volume`, numericalresidual.hh:40-55; `w` is the weight of the residual. -/
def alphaVolume (jac : List K → List ((Nat × Nat) × K)) (x : List K) (w : K) (r : List K) : Option (List K) := do
  let mat ← matAccumulate (LocalMatrix.mk' r.length x.length 0) (jac x)
  mat.usmv w x r

/-- `alpha_boundary`, numericalresidual.hh:133-148: the matrix is constructed with rows and columns exchanged. -/
def alphaBoundary (jac : List K → List ((Nat × Nat) × K)) (x : List K) (w : K) (r : List K) : Option (List K) := do
  let mat ← matAccumulate (LocalMatrix.mk' x.length r.length 0) (jac x)
  mat.usmv w x r

/-- `alpha_skeleton`, numericalresidual.hh:79-109. -/
def alphaSkeleton (jac : List K → List K → Four (List ((Nat × Nat) × K))) (xS xN : List K) (wS wN : K) (rS rN : List K) :
    Option (List K × List K) := do
  let ss ← matAccumulate (LocalMatrix.mk' rS.length xS.length 0) (jac xS xN).ss
  let sn ← matAccumulate (LocalMatrix.mk' rS.length xN.length 0) (jac xS xN).sn
  let ns ← matAccumulate (LocalMatrix.mk' rN.length xS.length 0) (jac xS xN).ns
  let nn ← matAccumulate (LocalMatrix.mk' rN.length xN.length 0) (jac xS xN).nn
  let rS ← ss.usmv wS xS rS
  let rN ← ns.usmv wN xS rN
  let rS ← sn.usmv wS xN rS
  let rN ← nn.usmv wN xN rN
  pure (rS, rN)

end Verif.NumericalJacobian
