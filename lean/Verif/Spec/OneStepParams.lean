import Verif.Model.OneStepParams
import Mathlib.Algebra.BigOperators.Group.Finset.Basic
import Mathlib.Algebra.Module.Defs
import Mathlib.Algebra.BigOperators.Fin
/-
What it means for a scheme to be consistent and of a given order.
-/
namespace Verif.OneStep
open Finset

variable {K : Type} [Field K] [LinearOrder K]

/-- The tables have the sizes the interface promises. -/
def Scheme.WellFormed (S : Scheme K) : Prop :=
  S.D.length = S.s + 1 ∧ S.A.length = S.s ∧ S.B.length = S.s ∧
  (∀ row ∈ S.A, row.length = S.s + 1) ∧ (∀ row ∈ S.B, row.length = S.s + 1)

/-- The consistency conditions of a scheme of Shu–Osher type: constants are preserved, and so are linear functions of time. -/
def Scheme.Consistent (S : Scheme K) : Prop :=
  S.d 0 = 0 ∧ S.d S.s = 1 ∧ ∀ r, 1 ≤ r → r ≤ S.s →
    S.a r r = 1 ∧ (∑ i ∈ range (r + 1), S.a r i) = 0 ∧
    (∑ i ∈ range (r + 1), S.a r i * S.d i) = ∑ i ∈ range (r + 1), S.b r i

/-- The documented scheme (onestepparameter.hh:22-30) applied to `u' = f(t,u)`, i.e. with `m(u,t) = u` and `r(u,t) = -f(t,u)`:
`u 0` is the old value, `u S.s` the new one. -/
def Scheme.Solves (S : Scheme K) {V : Type} [AddCommGroup V] [Module K V] (f : K → V → V) (t dt : K) (u : Nat → V) : Prop :=
  ∀ r, 1 ≤ r → r ≤ S.s →
    (∑ i ∈ range (r + 1), (S.a r i • u i + (S.b r i * dt) • (-(f (t + S.d i * dt) (u i))))) = 0

/-- `u 0, …, u s` are the stages of the Runge–Kutta method with coefficients `T` and abscissae `c`
(stage 0 is the old value, stage `s` the new one). -/
def RungeKutta {V : Type} [AddCommGroup V] [Module K V] (s : Nat) (T : Nat → Nat → K) (c : Nat → K)
    (f : K → V → V) (t dt : K) (u : Nat → V) : Prop :=
  ∀ i, i ≤ s → u i = u 0 + dt • ∑ j ∈ range (s + 1), T i j • f (t + c j * dt) (u j)

/-- The rooted-tree order conditions of a Runge–Kutta method whose last stage is the new value
(Butcher's conditions up to order four). -/
def OrderConditions (s : Nat) (T : Nat → Nat → K) (c : Nat → K) (p : Nat) : Prop :=
  (1 ≤ p → ∑ i ∈ range (s + 1), T s i = 1) ∧
  (2 ≤ p → ∑ i ∈ range (s + 1), T s i * c i = 1/2) ∧
  (3 ≤ p → ∑ i ∈ range (s + 1), T s i * c i ^ 2 = 1/3 ∧
    ∑ i ∈ range (s + 1), T s i * ∑ j ∈ range (s + 1), T i j * c j = 1/6) ∧
  (4 ≤ p → ∑ i ∈ range (s + 1), T s i * c i ^ 3 = 1/4 ∧
    ∑ i ∈ range (s + 1), T s i * c i * ∑ j ∈ range (s + 1), T i j * c j = 1/8 ∧
    ∑ i ∈ range (s + 1), T s i * ∑ j ∈ range (s + 1), T i j * c j ^ 2 = 1/12 ∧
    ∑ i ∈ range (s + 1), T s i * ∑ j ∈ range (s + 1), T i j * ∑ k ∈ range (s + 1), T j k * c k = 1/24)

/-- The scheme has (at least) order `p ≤ 4`: it is, for every right hand side, a Runge–Kutta method with abscissae `d` whose
coefficients satisfy the row sum condition and the order conditions. -/
def Scheme.HasOrder (S : Scheme K) (p : Nat) : Prop :=
  ∃ T : Nat → Nat → K,
    (∀ i, i ≤ S.s → ∑ j ∈ range (S.s + 1), T i j = S.d i) ∧ OrderConditions S.s T S.d p ∧
    ∀ (V : Type) [AddCommGroup V] [Module K V] (f : K → V → V) (t dt : K) (u : Nat → V),
      S.Solves f t dt u ↔ RungeKutta S.s T S.d f t dt u

/-- `∑_{k ≤ p} z^k / k!`. -/
def expPoly (p : Nat) (z : K) : K := ∑ k ∈ range (p + 1), z ^ k / (Nat.factorial k : K)

/-- The coefficients of Alexander's third order scheme depend on a root of this polynomial. -/
def alexanderPoly (x : K) : K := x ^ 3 - 3 * x ^ 2 + 3/2 * x - 1/6

end Verif.OneStep
