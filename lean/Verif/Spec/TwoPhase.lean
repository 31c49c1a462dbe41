import Mathlib.Algebra.Order.Ring.Defs
import Mathlib.Algebra.Field.Defs
import Mathlib.Data.Matrix.Mul
/-
The flux of a phase between two cells. Independent of the model of the operators.
-/
namespace Verif.LocalOp.Spec

variable {K : Type} [Field K] [LinearOrder K]

/-- One phase in one cell: its pressure, mass density, molar density, viscosity, the saturation of the phase, the relative
permeability as function of the saturation, and the permeability. -/
structure PhaseState (K : Type) where
  p : K
  rho : K
  nu : K
  mu : K
  s : K
  kr : K → K
  k : K

/-- The driving force from `a` to `b` at distance `h`: the drop of the pressure plus the mean density times gravity along the
normal. -/
def drive (h gn : K) (a b : PhaseState K) : K := (a.p - b.p) / h + 1 / 2 * (a.rho + b.rho) * gn

/-- The saturation of the cell the phase comes from. -/
def upstream (w : K) (a b : PhaseState K) : K := if 0 ≤ w then a.s else b.s

/-- The conductivity of a cell for a saturation. -/
def conductivity (s : K) (a : PhaseState K) : K := a.kr s / a.mu * a.k

/-- The harmonic mean, with the regularisation of the code. -/
def harmonicMean (a b : K) : K := 2 / (1 / (a + 1 / 10 ^ 30) + 1 / (b + 1 / 10 ^ 30))

/-- The molar flux per area from `a` to `b`. -/
def phaseFlux (h gn : K) (a b : PhaseState K) : K :=
  let w := drive h gn a b
  let s := upstream w a b
  1 / 2 * (a.nu + b.nu) * harmonicMean (conductivity s a) (conductivity s b) * w

/-- The molar flux per area from `a` to a boundary with pressure `g` at distance `h`. -/
def phaseBoundaryFlux (h gn : K) (a : PhaseState K) (g : K) : K := a.nu * conductivity a.s a * ((a.p - g) / h + a.rho * gn)

end Verif.LocalOp.Spec
