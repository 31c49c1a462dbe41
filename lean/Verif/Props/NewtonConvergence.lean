import Verif.Proofs.NewtonConvergence
import Verif.Props.Newton
import Mathlib.Algebra.Module.LinearMap.Defs
/-
Theorems about the convergence of the Newton solver (C225).
-/
namespace Verif

open Newton Newton.Spec

section general

variable {K X : Type} [Field K] [LinearOrder K] [IsStrictOrderedRing K] [AddCommGroup X] [Module K X]

/-- C225. Suppose that the Jacobian can always be assembled and that the correction computed with any assembled Jacobian reduces the defect by
a factor of at most `rho ≤ 3/4` if subtracted in full. Then, without forced iterations, with a positive absolute limit, a reassembly threshold
below one and any line search that is allowed at least one trial, `apply` returns without exception as soon as `k` such reductions suffice for
one of the two criteria and `k` iterations are allowed: it makes at most `k` iterations, and after `i` iterations the defect is at most `rho^i`
times the first one. -/
theorem C225_converges (P : Problem K X) (q : Params K) (hforce : q.forceIteration = false) (habs : 0 < q.absoluteLimit)
    (hthr : q.reassembleThreshold < 1) (hn : ∀ n e b, q.lineSearch = .hackbuschReusken n e b → 0 < n)
    (hok : ∀ y, P.jacobianOk y = true) (rho : K) (h0 : 0 ≤ rho) (h34 : rho ≤ 3 / 4)
    (hstep : ∀ z y red d, P.defect y = some d → (P.solve (some z) y red).1 = true ∧
      ∃ d', P.defect (y - (P.solve (some z) y red).2.1) = some d' ∧ d' ≤ rho * d)
    (kept : Option (Option X)) (x : X) (f : K) (hf : P.defect x = some f) (k : Nat) (hk : k ≤ q.maxIterations)
    (hcrit : rho ^ k * f < q.absoluteLimit ∨ rho ^ k * f < f * q.reduction) :
    (apply P q kept x).2 = none ∧ (apply P q kept x).1.result.iterations ≤ k ∧
    ∃ d, P.defect (apply P q kept x).1.solution = some d ∧ d ≤ rho ^ (apply P q kept x).1.result.iterations * f := by
  have h := loop_converges P q hforce habs hn hok rho h0 h34 hstep f k hk hcrit (q.maxIterations + 2)
    ⟨x, { Result.clear with defect := P.defect x, firstDefect := P.defect x }, P.defect x, kept.orElse fun _ => some none, []⟩ f rfl hf hf
    (by dsimp only [Result.clear]; rw [pow_zero, one_mul]) (Nat.zero_le _) (by dsimp only [Result.clear]; omega)
    (Or.inr fun hpos => by
      dsimp only
      rw [hf]
      unfold ratioGt
      dsimp only
      rw [if_neg hpos.ne', div_self hpos.ne']
      exact decide_eq_true hthr)
  unfold apply
  dsimp only
  split
  · split
    · exact h
    · exact ⟨rfl, h.2⟩
  · exact h

/-- C225, linear problems: if the residual is `A x - b`, measured in a norm, and the linear solver always solves with `A`, Newton returns after
at most one iteration, and after one iteration the solution of the linear problem is found - whatever the line search does beyond its first
trial, and whichever matrix was kept. -/
theorem C225_linear {Y : Type} [AddCommGroup Y] [Module K Y] (A : X →ₗ[K] Y) (b : Y) (norm : Y → K) (hnorm : ∀ y, 0 ≤ norm y)
    (hzero : ∀ y, norm y = 0 ↔ y = 0) (P : Problem K X) (hP : ∀ x, P.defect x = some (norm (A x - b))) (hok : ∀ y, P.jacobianOk y = true)
    (hsolve : ∀ z y red, (P.solve (some z) y red).1 = true ∧ A (P.solve (some z) y red).2.1 = A y - b)
    (q : Params K) (hforce : q.forceIteration = false) (habs : 0 < q.absoluteLimit) (hthr : q.reassembleThreshold < 1)
    (hn : ∀ n e b, q.lineSearch = .hackbuschReusken n e b → 0 < n) (hmax : 1 ≤ q.maxIterations) (kept : Option (Option X)) (x : X) :
    let s := (apply P q kept x).1
    (apply P q kept x).2 = none ∧ s.result.iterations ≤ 1 ∧ (s.result.iterations = 1 → A s.solution = b) := by
  have h := C225_converges P q hforce habs hthr hn hok 0 (le_refl 0) (by norm_num) (by
    intro z y red d hd
    refine ⟨(hsolve z y red).1, 0, ?_, by rw [zero_mul]⟩
    rw [hP, map_sub, (hsolve z y red).2, sub_sub_cancel, sub_self, (hzero 0).2 rfl]) kept x _ (hP x) 1 hmax
    (Or.inl (by rw [pow_one, zero_mul]; exact habs))
  refine ⟨h.1, h.2.1, ?_⟩
  intro h1
  obtain ⟨d, hd, hle⟩ := h.2.2
  rw [h1, pow_one, zero_mul] at hle
  rw [hP] at hd
  have e : norm (A (apply P q kept x).1.solution - b) = 0 := le_antisymm (by rw [Option.some.inj hd]; exact hle) (hnorm _)
  exact sub_eq_zero.1 ((hzero _).1 e)

end general

/-- Each step of the example of C28 halves the defect: the hypotheses hold with `rho = 1/2` and `k = 4`. -/
example : newtonParams.forceIteration = false ∧ 0 < newtonParams.absoluteLimit ∧ newtonParams.reassembleThreshold < 1 ∧
    (∀ n e b, newtonParams.lineSearch = .hackbuschReusken n e b → 0 < n) ∧
    (∀ z y red d, newtonExample.defect y = some d → (newtonExample.solve (some z) y red).1 = true ∧
      ∃ d', newtonExample.defect (y - (newtonExample.solve (some z) y red).2.1) = some d' ∧ d' ≤ 1 / 2 * d) ∧
    newtonExample.defect 1 = some 1 ∧ (1 / 2 : ℚ) ^ 4 * 1 < 1 * newtonParams.reduction := by
  refine ⟨rfl, by decide +kernel, by decide +kernel, ?_, ?_, by decide +kernel, by decide +kernel⟩
  · intro n e b h; cases h; decide
  · intro z y red d hd
    refine ⟨rfl, _, rfl, ?_⟩
    unfold newtonExample at hd ⊢
    dsimp only at hd ⊢
    rw [← Option.some.inj hd]
    split <;> split <;> linarith

/-- A linear problem: `2 x = 6`, solved exactly from `0`. -/
def newtonLinear : Problem ℚ ℚ := ⟨fun x => some |2 * x - 6|, fun _ => true, fun _ x _ => (true, (2 * x - 6) / 2, 1)⟩

example : ∀ (z y : ℚ) (red : Option ℚ), (newtonLinear.solve (some z) y red).1 = true ∧
    2 * (newtonLinear.solve (some z) y red).2.1 = 2 * y - 6 := by
  intro z y red
  refine ⟨rfl, ?_⟩
  show 2 * ((2 * y - 6) / 2) = _
  ring

example : (apply newtonLinear newtonParams none 0).1.result.iterations = 1 ∧ (apply newtonLinear newtonParams none 0).1.solution = 3 := by
  decide +kernel

/-- Why a threshold of one is excluded: with a first defect whose ratio to itself does not exceed it, the matrix is never assembled, and the
hypothesis on assembled matrices says nothing; here the solver stops without success although each correction with an assembled Jacobian would
be exact. -/
theorem C225_threshold : ∃ (P : Problem ℚ ℚ) (q : Params ℚ) (x : ℚ), q.reassembleThreshold = 1 ∧
    (∀ z y red, P.defect (y - (P.solve (some z) y red).2.1) = some 0) ∧ (apply P q none x).2 = some .lineSearch :=
  ⟨{ newtonLinear with solve := fun m x _ => (true, match m with | none => 0 | some _ => (2 * x - 6) / 2, 1) },
    { newtonParams with reassembleThreshold := 1 }, 0, rfl, by
      intro z y red
      show some |2 * (y - (2 * y - 6) / 2) - 6| = some 0
      have : 2 * (y - (2 * y - 6) / 2) - 6 = 0 := by ring
      rw [this, abs_zero], by decide +kernel⟩

end Verif
