import Verif.Spec.ScaledOperator
import Mathlib.Tactic.Ring
import Mathlib.Algebra.Ring.Int.Defs
/-
Lemmas on scaled local operators.
-/
namespace Verif.ScaledOperator

open Spec CombinedOperator

variable {K : Type} [CommRing K] [DecidableEq K]

theorem backendMethod_eq (m : Method) : backendMethod m = m := by cases m <;> rfl

/-- Either a factor is zero, and nothing is called, or the operator is called once. -/
theorem call_cases {h : Heap K} {n id u : Nat} {f : K} (hs : Scales h n id f u) (m : Method) : ∀ ws : List (Option K),
    (call h n id m ws = some [] ∧ f = 0) ∨ call h n id m ws = some [⟨u, m, ws.map fun w => w.map fun w => f * w⟩] := by
  induction hs with
  | user u => intro ws; right; simp [call]
  | @scaled n id b u f hb _ ih =>
    intro ws
    by_cases h0 : (h (n + 1) id).factor = 0
    · left
      simp [call, h0]
    · simp only [call, ne_eq, h0, not_false_eq_true, if_true, hb, backendMethod_eq]
      rcases ih (ws.map fun w => w.map fun w => (h (n + 1) id).factor * w) with ⟨h1, h2⟩ | h1
      · left
        exact ⟨h1, by rw [h2, mul_zero]⟩
      · right
        rw [h1]
        simp only [List.map_map, Option.some.injEq, List.cons.injEq, Call.mk.injEq, true_and, and_true]
        refine List.map_congr_left fun w _ => ?_
        cases w with
        | none => rfl
        | some w =>
          simp only [Function.comp, Option.map_some, Option.some.injEq]
          ring

theorem scales_unique {h : Heap K} {n id u u' : Nat} {f f' : K} (hs : Scales h n id f u) (hs' : Scales h n id f' u') : f = f' ∧ u = u' := by
  induction hs generalizing f' u' with
  | user u => cases hs'; exact ⟨rfl, rfl⟩
  | scaled hb _ ih =>
    cases hs' with
    | scaled hb' hs' =>
      rw [hb] at hb'
      cases hb'
      obtain ⟨h1, h2⟩ := ih hs'
      exact ⟨by rw [h1], h2⟩

end Verif.ScaledOperator
