import Verif.Proofs.AdaptiveSteps
import Mathlib.Algebra.Order.Ring.Rat
import Mathlib.Tactic.NormNum
/-
Theorems about whole adaptive computations (C227).
-/
namespace Verif

open Adaptivity Adaptivity.Spec

variable {K : Type} [Field K] [LinearOrder K] [IsStrictOrderedRing K]

/-- C227 (tolerance): in a computation with a fixed tolerance, however often steps are redone, the accumulated estimate never decreases and is
bounded by the squared tolerance times the energy (at least the minimal energy rate) of the accepted steps. -/
theorem C227_tolerance (tol rate : K) (es es' : List (Event K)) (h : Uses tol rate (es ++ es')) :
    (run Strategy.init es).accumulated ≤ (run Strategy.init (es ++ es')).accumulated ∧
    0 ≤ (run Strategy.init es).accumulated ∧
    (run Strategy.init es).accumulated ≤
      tol ^ 2 * (energyOf (acceptedSteps Strategy.init es) + rate * timeOf (acceptedSteps Strategy.init es)) := by
  have h1 : Uses tol rate es := fun e he => h e (List.mem_append_left _ he)
  have h2 : Uses tol rate es' := fun e he => h e (List.mem_append_right _ he)
  obtain ⟨a1, a2⟩ := run_bounds tol rate es Strategy.init h1
  have a3 := (run_bounds tol rate es' (run Strategy.init es) h2).1
  rw [show run Strategy.init (es ++ es') = run (run Strategy.init es) es' from List.foldl_append ..]
  rw [show (Strategy.init : Strategy K).accumulated = 0 from rfl] at a1 a2
  rw [zero_add] at a2
  exact ⟨a3, a1, a2⟩

/-- C227 (attempts): if the driver redoes a step with the size it is asked for as long as it is rejected, then the sizes are positive, and first grow
and then shrink: there is no second growth. -/
theorem C227_attempts (es : List (Event K)) (ds : List (Params K × Int × Args K)) (dt : K) (hdt : 0 < dt)
    (hf : ∀ d, d ∈ ds → 0 < d.1.decreaseFactor ∧ d.1.decreaseFactor < 1 ∧ 1 ≤ d.1.increaseFactor)
    (hr : AllRejected (run Strategy.init es) dt ds) :
    (∀ x, x ∈ attempts (run Strategy.init es) dt ds → 0 < x) ∧
    ∃ up down, attempts (run Strategy.init es) dt ds = up ++ down ∧ up.Pairwise (· ≤ ·) ∧ down.Pairwise (· ≥ ·) := by
  obtain ⟨⟨up, down, e, u, v, _⟩, hp⟩ := attempts_unimodal ds (run Strategy.init es) dt hdt hf hr
  exact ⟨hp, up, down, e, u, v⟩

/-- Parameters of the examples: tolerance 1, minimal energy rate 0. -/
private def exParams : Params Rat := ⟨1, 1 / 2, 1 / 3, 1, false, 7 / 10, 1 / 5, 1 / 5, 1 / 2, 3 / 2, 0, 0⟩

/-- A step is redone once, then accepted. The error 3/4 of the accepted one is bounded by its energy 1. -/
example : (run Strategy.init [.start, .evaluate exParams 100 ⟨1, [⟨0, 1⟩], [1], 1⟩,
      .evaluate exParams 100 ⟨1 / 2, [⟨0, 1 / 2⟩], [1 / 4], 1⟩]).accumulated = 3 / 4 ∧
    (acceptedSteps Strategy.init [.start, .evaluate exParams 100 ⟨1, [⟨0, 1⟩], [1], 1⟩,
      .evaluate exParams 100 ⟨1 / 2, [⟨0, 1 / 2⟩], [1 / 4], 1⟩]).map Args.dt = [1 / 2] := by decide +kernel

example : Uses (1 : Rat) 0 [.start, .evaluate exParams 100 ⟨1, [⟨0, 1⟩], [1], 1⟩] := by
  intro e he p m a h
  simp only [List.mem_cons, List.not_mem_nil, or_false] at he
  rcases he with rfl | rfl
  · cases h
  · cases h; exact ⟨rfl, rfl, rfl, by decide⟩

/-- Spatial error dominates, then both, then spatial error again: sizes 1, 3/2, 3/4, 3/4. -/
example : attempts (Strategy.init : Strategy Rat) 1 [(exParams, 100, ⟨0, [⟨0, 8⟩], [0], 1⟩), (exParams, 100, ⟨0, [⟨0, 8⟩], [8], 1⟩),
    (exParams, 100, ⟨0, [⟨0, 8⟩], [0], 1⟩)] = [1, 3 / 2, 3 / 4, 3 / 4] := by decide +kernel

example : AllRejected (Strategy.init : Strategy Rat) 1 [(exParams, 100, ⟨0, [⟨0, 8⟩], [0], 1⟩), (exParams, 100, ⟨0, [⟨0, 8⟩], [8], 1⟩),
    (exParams, 100, ⟨0, [⟨0, 8⟩], [0], 1⟩)] := by
  refine ⟨?_, ?_, ?_, trivial⟩ <;> decide +kernel

end Verif
