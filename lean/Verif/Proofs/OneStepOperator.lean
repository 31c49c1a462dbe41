import Verif.Spec.OneStepOperator
import Mathlib.Algebra.Order.Field.Basic
import Mathlib.Algebra.BigOperators.Ring.Finset
import Mathlib.Algebra.Module.BigOperators
import Mathlib.Tactic.Module
import Mathlib.Tactic.Abel
import Mathlib.Tactic.NormNum
namespace Verif.OneStep
open Finset

variable {K X V : Type} [Field K] [LinearOrder K] [IsStrictOrderedRing K] [AddCommGroup V] [Module K V]

theorem form_cons (R : Op K X V) (c : Kind × Nat) (trace : List (Kind × Nat)) (t : K) (x : X) :
    form R (c :: trace) t x = R c.1 c.2 t x + form R trace t x := by simp [form]

theorem factors_eq (P : Setting K) : factors P.mode P.dt = (P.factor0, P.factor1) := by
  unfold factors Setting.factor0 Setting.factor1
  cases P.mode <;> rfl

/-- The sum one call of the pre-stage engine adds, for operator 0. -/
def pre0 (P : Setting K) (R0 : Op K X V) (x : Nat → X) (c : Kind × Nat) (n : Nat) : V :=
  ∑ s ∈ range n, (if |P.scheme.b P.stage s| > threshold then
    (P.scheme.b P.stage s * P.factor0) • R0 c.1 c.2 (P.time + P.scheme.d s * P.dt) (x s) else 0)

/-- … for operator 1. -/
def pre1 (P : Setting K) (R1 : Op K X V) (x : Nat → X) (c : Kind × Nat) (n : Nat) : V :=
  ∑ s ∈ range n, (if |P.scheme.a P.stage s| > threshold then
    (P.scheme.a P.stage s * P.factor1) • R1 c.1 c.2 (P.time + P.scheme.d s * P.dt) (x s) else 0)

theorem preStageOne_res (P : Setting K) (sh : Bool) (R0 R1 : Op K X V) (x : Nat → X) (k : Kind) (e : Nat) (st : St K X V)
    (s : Nat) :
    let A : V := if |P.scheme.b P.stage s| > threshold then
      (P.scheme.b P.stage s * P.factor0) • R0 k e (P.time + P.scheme.d s * P.dt) (x s) else 0
    let B : V := if |P.scheme.a P.stage s| > threshold then
      (P.scheme.a P.stage s * P.factor1) • R1 k e (P.time + P.scheme.d s * P.dt) (x s) else 0
    (preStageOne P sh R0 R1 x k e st s).res0 = st.res0 + A + (if sh then B else 0) ∧
    (preStageOne P sh R0 R1 x k e st s).res1 = st.res1 + (if sh then 0 else B) ∧
    (preStageOne P sh R0 R1 x k e st s).side1.time = P.time + P.scheme.d s * P.dt := by
  unfold preStageOne
  by_cases hb : |P.scheme.b P.stage s| > threshold <;> by_cases ha : |P.scheme.a P.stage s| > threshold <;>
    cases sh <;> simp [hb, ha, St.call0, St.call1]

theorem preStageCall_res (P : Setting K) (sh : Bool) (R0 R1 : Op K X V) (x : Nat → X) (st : St K X V) (c : Kind × Nat) :
    (preStageCall P sh R0 R1 x st c).res0
      = st.res0 + (pre0 P R0 x c P.stage + if sh then pre1 P R1 x c P.stage else 0) ∧
    (preStageCall P sh R0 R1 x st c).res1 = st.res1 + (if sh then 0 else pre1 P R1 x c P.stage) ∧
    (0 < P.stage → (preStageCall P sh R0 R1 x st c).side1.time = P.time + P.scheme.d (P.stage - 1) * P.dt) := by
  unfold preStageCall
  have : ∀ n, ((List.range n).foldl (preStageOne P sh R0 R1 x c.1 c.2) st).res0
        = st.res0 + (pre0 P R0 x c n + if sh then pre1 P R1 x c n else 0) ∧
      ((List.range n).foldl (preStageOne P sh R0 R1 x c.1 c.2) st).res1 = st.res1 + (if sh then 0 else pre1 P R1 x c n) ∧
      (0 < n → ((List.range n).foldl (preStageOne P sh R0 R1 x c.1 c.2) st).side1.time
        = P.time + P.scheme.d (n - 1) * P.dt) := by
    intro n
    induction n with
    | zero => cases sh <;> simp [pre0, pre1]
    | succ n ih =>
      rw [List.range_succ, List.foldl_append, List.foldl_cons, List.foldl_nil]
      obtain ⟨h1, h2, h3⟩ := preStageOne_res P sh R0 R1 x c.1 c.2
        ((List.range n).foldl (preStageOne P sh R0 R1 x c.1 c.2) st) n
      refine ⟨?_, ?_, fun _ => ?_⟩
      · rw [h1, ih.1]; unfold pre0 pre1; rw [sum_range_succ, sum_range_succ]
        cases sh <;> simp <;> abel
      · rw [h2, ih.2.1]; unfold pre1; rw [sum_range_succ]
        cases sh <;> simp [add_assoc]
      · rw [h3]; simp
  exact this P.stage

theorem preStageFold_res (P : Setting K) (sh : Bool) (R0 R1 : Op K X V) (x : Nat → X) (trace : List (Kind × Nat)) :
    ∀ (st : St K X V), (trace.foldl (preStageCall P sh R0 R1 x) st).res0
      = st.res0 + (trace.map fun c => pre0 P R0 x c P.stage + if sh then pre1 P R1 x c P.stage else 0).sum ∧
    (trace.foldl (preStageCall P sh R0 R1 x) st).res1
      = st.res1 + (trace.map fun c => if sh then 0 else pre1 P R1 x c P.stage).sum := by
  induction trace with
  | nil => intro st; simp
  | cons c trace ih =>
    intro st
    rw [List.foldl_cons]
    obtain ⟨h1, h2, -⟩ := preStageCall_res P sh R0 R1 x st c
    rw [(ih _).1, (ih _).2, h1, h2]
    simp [add_assoc]

theorem sum_pre0 (P : Setting K) (R0 : Op K X V) (x : Nat → X) (trace : List (Kind × Nat)) :
    (trace.map fun c => pre0 P R0 x c P.stage).sum
      = ∑ s ∈ range P.stage, (if |P.scheme.b P.stage s| > threshold then
        (P.scheme.b P.stage s * P.factor0) • form R0 trace (P.time + P.scheme.d s * P.dt) (x s) else 0) := by
  induction trace with
  | nil => simp [form]
  | cons c trace ih =>
    rw [List.map_cons, List.sum_cons, ih, pre0, ← sum_add_distrib]
    refine sum_congr rfl fun s _ => ?_
    rw [form_cons]
    split <;> simp

theorem sum_pre1 (P : Setting K) (R1 : Op K X V) (x : Nat → X) (trace : List (Kind × Nat)) :
    (trace.map fun c => pre1 P R1 x c P.stage).sum
      = ∑ s ∈ range P.stage, (if |P.scheme.a P.stage s| > threshold then
        (P.scheme.a P.stage s * P.factor1) • form R1 trace (P.time + P.scheme.d s * P.dt) (x s) else 0) := by
  induction trace with
  | nil => simp [form]
  | cons c trace ih =>
    rw [List.map_cons, List.sum_cons, ih, pre1, ← sum_add_distrib]
    refine sum_congr rfl fun s _ => ?_
    rw [form_cons]
    split <;> simp

theorem baseFold_res (imp : Bool) (R0 R1 : Op K X V) (trace : List (Kind × Nat)) : ∀ (st : St K X V),
    (trace.foldl (baseCall imp R0 R1) st).res0
      = st.res0 + (if imp then st.side0.weight • form R0 trace st.side0.time st.side0.sol else 0)
        + st.side1.weight • form (fun k e t x => if forwards1 k then R1 k e t x else 0) trace st.side1.time st.side1.sol := by
  induction trace with
  | nil => intro st; cases imp <;> simp [form]
  | cons c trace ih =>
    intro st
    rw [List.foldl_cons, ih]
    unfold baseCall
    cases imp <;> cases hf : forwards1 c.1 <;>
      simp [St.call0, St.call1, form_cons, hf] <;> abel

end Verif.OneStep
