import Mathlib.Algebra.Field.Defs
import Mathlib.Order.Defs.LinearOrder
import Mathlib.Logic.Function.Iterate
/-
Model of the coefficients of the time-stepping schemes.
Source: dune/pdelab/instationary/onestepparameter.hh.

Floating point numbers are elements of an ordered field (exact arithmetic); `sqrt(2.0)` is a parameter `r` with `r * r = 2`.
-/
namespace Verif.OneStep

/-- onestepparameter.hh:42-77  what a scheme provides: `D`, `A`, `B` as filled by the constructors. -/
structure Scheme (K : Type) where
  s : Nat
  implicit : Bool
  D : List K
  A : List (List K)
  B : List (List K)

variable {K : Type} [Field K] [LinearOrder K]

/-- onestepparameter.hh:121-124 (and the same in every class)  `a(r,i) = A[r-1][i]`. (Out of range accesses, which are undefined in C++, are 0 here;
C22 shows that the tables are large enough for all arguments allowed by the interface.) -/
def Scheme.a (S : Scheme K) (r i : Nat) : K := (S.A.getD (r - 1) []).getD i 0

/-- onestepparameter.hh:129-132  `b(r,i) = B[r-1][i]`. -/
def Scheme.b (S : Scheme K) (r i : Nat) : K := (S.B.getD (r - 1) []).getD i 0

/-- onestepparameter.hh:137-140  `d(i) = D[i]`. -/
def Scheme.d (S : Scheme K) (i : Nat) : K := S.D.getD i 0

/-- onestepparameter.hh:96-102, 106-109, 113-116  `OneStepThetaParameter`. -/
def oneStepTheta (theta : K) : Scheme K :=
  ⟨1, decide (theta > 0), [0, 1], [[-1, 1]], [[1 - theta, theta]]⟩

/-- onestepparameter.hh:168-170  `ExplicitEulerParameter`. -/
def explicitEuler : Scheme K := oneStepTheta 0

/-- onestepparameter.hh:193-195  `ImplicitEulerParameter`. -/
def implicitEuler : Scheme K := oneStepTheta 1

/-- onestepparameter.hh:218-227  `HeunParameter`. -/
def heun : Scheme K :=
  ⟨2, false, [0, 1, 1],
   [[-1, 1, 0], [-(1/2), -(1/2), 1]],
   [[1, 0, 0], [0, 1/2, 0]]⟩

/-- onestepparameter.hh:291-303  `Shu3Parameter`. -/
def shu3 : Scheme K :=
  ⟨3, false, [0, 1, 1/2, 1],
   [[-1, 1, 0, 0], [-(3/4), -(1/4), 1, 0], [-(1/3), 0, -(2/3), 1]],
   [[1, 0, 0, 0], [0, 1/4, 0, 0], [0, 0, 2/3, 0]]⟩

/-- onestepparameter.hh:368-382  `RK4Parameter`. -/
def rk4 : Scheme K :=
  ⟨4, false, [0, 1/2, 1/2, 1, 1],
   [[-1, 1, 0, 0, 0], [-1, 0, 1, 0, 0], [-1, 0, 0, 1, 0], [-1, 0, 0, 0, 1]],
   [[1/2, 0, 0, 0, 0], [0, 1/2, 0, 0, 0], [0, 0, 1, 0, 0], [1/6, 1/3, 1/3, 1/6, 0]]⟩

/-- onestepparameter.hh:449-461  `Alexander2Parameter`; `r` is `sqrt(2.0)`. -/
def alexander2 (r : K) : Scheme K :=
  let alpha := 1 - 1/2 * r
  ⟨2, true, [0, alpha, 1],
   [[-1, 1, 0], [-1, 0, 1]],
   [[0, alpha, 0], [0, 1 - alpha, alpha]]⟩

/-- onestepparameter.hh:526-544  `FractionalStepParameter`; `r` is `sqrt(2.0)`. -/
def fractionalStep (r : K) : Scheme K :=
  let theta := 1 - 1/2 * r
  let thetap := 1 - 2 * theta
  let alpha := 2 - r
  let beta := 1 - alpha
  ⟨3, true, [0, theta, 1 - theta, 1],
   [[-1, 1, 0, 0], [0, -1, 1, 0], [0, 0, -1, 1]],
   [[beta * theta, alpha * theta, 0, 0], [0, alpha * thetap, alpha * theta, 0], [0, 0, beta * theta, alpha * theta]]⟩

/-- onestepparameter.hh:614-621  one step of the Newton iteration for `alpha`. -/
def alexander3Newton (alpha : K) : K :=
  alpha - (alpha * (alpha * alpha - 3 * (alpha - 1/2)) - 1/6) / (3 * alpha * (alpha - 2) + 3/2)

/-- onestepparameter.hh:623-642  `Alexander3Parameter` for the final value of `alpha`. -/
def alexander3 (alpha : K) : Scheme K :=
  let tau2 := (1 + alpha) * (1/2)
  let b1 := -(6 * alpha * alpha - 16 * alpha + 1) * (1/4)
  let b2 := (6 * alpha * alpha - 20 * alpha + 5) * (1/4)
  ⟨3, true, [0, alpha, tau2, 1],
   [[-1, 1, 0, 0], [-1, 0, 1, 0], [-1, 0, 0, 1]],
   [[0, alpha, 0, 0], [0, tau2 - alpha, alpha, 0], [0, b1, b2, alpha]]⟩

/-- onestepparameter.hh:614-624  ten Newton steps from 0.4358665215. -/
def alexander3Alpha : K := Nat.iterate alexander3Newton 10 (4358665215 / 10000000000)

end Verif.OneStep
