import Verif.Proofs.NewtonDecrease
import Verif.Props.Newton
/-
Theorem that the Newton solver with a line search never leaves a worse iterate (C223).
-/
namespace Verif

open Newton Newton.Spec

/-- C223. With the line search of Hackbusch and Reusken (positive damping factor other than one), a positive absolute limit and no forced
iteration, started at an iterate whose defect is a number, `apply` leaves - whether it returns or throws, and whatever the operator and the
linear solver do - either the initial iterate after no iteration, or an iterate whose defect is strictly below the first one; and the reported
defect is that of the iterate left. -/
theorem C223_never_worse {K X : Type} [Field K] [LinearOrder K] [IsStrictOrderedRing K] [AddCommGroup X] [Module K X] (P : Problem K X)
    (q : Params K) (n : Nat) (damping : K) (best : Bool) (hls : q.lineSearch = .hackbuschReusken n damping best) (h0 : 0 < damping)
    (h1 : damping ≠ 1) (habs : 0 < q.absoluteLimit) (hforce : q.forceIteration = false) (kept : Option (Option X)) (x : X) (first_ : K)
    (hf : P.defect x = some first_) :
    let s := (apply P q kept x).1
    s.result.defect = P.defect s.solution ∧
    ((s.result.iterations = 0 ∧ s.solution = x) ∨ (1 ≤ s.result.iterations ∧ ∃ d, P.defect s.solution = some d ∧ d < first_)) := by
  have hq : Damped q := by
    unfold Damped
    rw [hls]
    exact ⟨h0, h1⟩
  refine ⟨(apply_spec P q hq kept x).defect, ?_⟩
  have h := loop_lower P q n damping best hls h0 h1 habs hforce x first_ hf (q.maxIterations + 2)
    ⟨x, { Result.clear with defect := P.defect x, firstDefect := P.defect x }, P.defect x, kept.orElse fun _ => some none, []⟩ rfl rfl
    (Or.inl ⟨rfl, rfl⟩)
  have h' : Lower P x first_ (apply P q kept x).1 := by
    unfold apply
    dsimp only
    split
    · split
      · exact h
      · exact h
    · exact h
  rcases h' with h' | ⟨h1, d, f, hd, hf', hlt⟩
  · exact Or.inl h'
  · cases hf'
    exact Or.inr ⟨h1, d, hd, hlt⟩

example : newtonParams.lineSearch = .hackbuschReusken 10 (1 / 2) false ∧ 0 < newtonParams.absoluteLimit ∧
    newtonParams.forceIteration = false ∧ newtonExample.defect 1 = some 1 := by
  refine ⟨rfl, by decide +kernel, rfl, by decide +kernel⟩

/-- The run from `1` makes four iterations, down to a sixteenth. -/
example : (apply newtonExample newtonParams none 1).1.result.iterations = 4 ∧
    newtonExample.defect (apply newtonExample newtonParams none 1).1.solution = some (1 / 16) := by decide +kernel

/-- Why a forced iteration is excluded: started below the absolute limit, the line search takes the full step whatever it does. -/
theorem C223_forced_iteration : ∃ (P : Problem ℚ ℚ) (q : Params ℚ) (x : ℚ), q.lineSearch = .hackbuschReusken 10 (1 / 2) false ∧
    0 < q.absoluteLimit ∧ q.forceIteration = true ∧ P.defect x = some (1 / 1000) ∧ (apply P q none x).2 ≠ none ∧
    ∃ d, P.defect (apply P q none x).1.solution = some d ∧ 1 / 1000 < d :=
  ⟨⟨fun x => some (if x < 0 then -x else x), fun _ => true, fun _ _ _ => (true, 1, 0)⟩,
    { newtonParams with forceIteration := true, maxIterations := 1 }, 1 / 1000, rfl, by decide +kernel, rfl, by decide +kernel,
    by decide +kernel, _, rfl, by decide +kernel⟩

end Verif
