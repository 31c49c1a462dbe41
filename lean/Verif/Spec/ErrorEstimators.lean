import Verif.Spec.DGForm
/-
Squared error indicators, written down with finite element functions and numerical integration. Independent of the loops of the
operators.
-/
namespace Verif.LocalOp.Spec

open Matrix

variable {K P Q : Type} [Field K] [LinearOrder K] {d n m : Nat}

/-- `h` is the diameter of a set of corners: the largest distance between two of them. -/
def IsDiameter (dist : (Fin d → K) → (Fin d → K) → K) (corners : List (Fin d → K)) (h : K) : Prop :=
  (∃ a ∈ corners, ∃ b ∈ corners, h = dist a b) ∧ ∀ a ∈ corners, ∀ b ∈ corners, dist a b ≤ h

/-- The normal component of `A∇u` at a point of a cell. -/
def normalFluxAt (A : Matrix (Fin d) (Fin d) K) (gradu nu : Fin d → K) : K := (A *ᵥ gradu) ⬝ᵥ nu

/-- The same face, looked at from the other cell. -/
def otherSide (geo : FaceGeo K P Q d) : FaceGeo K P Q d where
  center := geo.center
  refVolume := geo.refVolume
  volume := geo.volume
  global := geo.global
  integrationElement := geo.integrationElement
  inInside := geo.inOutside
  inOutside := geo.inInside
  centerUnitOuterNormal := -geo.centerUnitOuterNormal
  unitOuterNormal := fun q => -geo.unitOuterNormal q
  quadratureRule := geo.quadratureRule

/-- The jump of the normal component of `A∇u` across a face. -/
def fluxJump (geo : FaceGeo K P Q d) (geoIn geoOut : CellGeo K P d) (AIn AOut : P → Matrix (Fin d) (Fin d) K)
    (lfsS : Basis K P d n) (xS : Fin n → K) (lfsN : Basis K P d m) (xN : Fin m → K) (q : Q) : K :=
  normalFluxAt (AIn (geo.inInside q)) (gradient geoIn lfsS xS (geo.inInside q)) (geo.unitOuterNormal q) -
    normalFluxAt (AOut (geo.inOutside q)) (gradient geoOut lfsN xN (geo.inOutside q)) (geo.unitOuterNormal q)

/-- The jump of `u` across a face. -/
def valueJump (geo : FaceGeo K P Q d) (lfsS : Basis K P d n) (xS : Fin n → K) (lfsN : Basis K P d m) (xN : Fin m → K) (q : Q) : K :=
  value lfsS xS (geo.inInside q) - value lfsN xN (geo.inOutside q)

/-- The smallest diagonal entry of a matrix. -/
def IsMinDiagonal (A : Matrix (Fin d) (Fin d) K) (e : K) : Prop := (∃ i, e = A i i) ∧ ∀ i, e ≤ A i i

/-- Simpson's rule on the interval from `t` to `t + dt`. -/
def simpson (t dt : K) (g : K → K) : K := dt * (1 / 6 * g t + 2 / 3 * g (t + dt / 2) + 1 / 6 * g (t + dt))

/-- The mean value in time, by Simpson's rule. -/
def timeMean (t dt : K) (g : K → K) : K := simpson t dt g / dt

end Verif.LocalOp.Spec
