import Verif.Proofs.NewtonQuadratic
import Verif.Props.NewtonConvergence
/-
C248: the speed of convergence of the Newton solver with the default reassembly threshold.
-/
namespace Verif

open Newton Newton.Spec

section general

variable {K X : Type} [Field K] [LinearOrder K] [IsStrictOrderedRing K] [AddCommGroup X] [Module K X]

/-- **C248 (quadratic convergence).** The Jacobian is reassembled in every step (the default), and with an exact linear solver a full step from a solution whose
defect `d` is at most the first one, `f`, leaves a defect of at most `C d^2`. If `C f ≤ 3/4`, `apply` takes full steps only and returns as soon as the
bound `(C f)^(2^k) / C` fulfils a criterion and `k` iterations are allowed; after `i` iterations the defect is at most `(C f)^(2^i) / C`. -/
theorem C248_quadratic (P : Problem K X) (q : Params K) (hforce : q.forceIteration = false) (habs : 0 < q.absoluteLimit)
    (hthr : q.reassembleThreshold = 0) (hmin : 0 < q.minLinearReduction)
    (hn : ∀ n e b, q.lineSearch = .hackbuschReusken n e b → 0 < n) (hok : ∀ y, P.jacobianOk y = true)
    (kept : Option (Option X)) (x : X) (f : K) (hf : P.defect x = some f) (C : K) (hC : 0 < C) (hCf : C * f ≤ 3 / 4) (hf0 : 0 ≤ f)
    (hstep : ∀ y d red, P.defect y = some d → d ≤ f → (P.solve (some y) y red).1 = true ∧
      ∃ d', P.defect (y - (P.solve (some y) y red).2.1) = some d' ∧ d' ≤ C * d ^ 2)
    (k : Nat) (hk : k ≤ q.maxIterations) (hcrit : (C * f) ^ 2 ^ k / C < q.absoluteLimit ∨ (C * f) ^ 2 ^ k / C < f * q.reduction) :
    (apply P q kept x).2 = none ∧ (apply P q kept x).1.result.iterations ≤ k ∧
    ∃ d, P.defect (apply P q kept x).1.solution = some d ∧ d ≤ (C * f) ^ 2 ^ (apply P q kept x).1.result.iterations / C := by
  have hcf0 : 0 ≤ C * f := mul_nonneg hC.le hf0
  refine apply_local P q hforce habs hthr hmin hn hok (fun i => (C * f) ^ 2 ^ i / C) ?_ kept x f hf (by
    rw [pow_zero, pow_one, mul_comm, mul_div_assoc, div_self hC.ne', mul_one]) k hk hcrit
  intro i y d r hd hlim hle hr1 hr2
  have hd0 : 0 ≤ d := le_trans habs.le hlim
  have h1 : C * d ≤ (C * f) ^ 2 ^ i := by
    rw [le_div_iff₀ hC] at hle
    linarith
  have h2 : (C * f) ^ 2 ^ i ≤ C * f := by
    refine pow_le_of_le_one hcf0 (by linarith) (by positivity)
  have h3 : d ≤ f := by
    by_contra h0
    have := mul_lt_mul_of_pos_left (not_le.mp h0) hC
    linarith
  obtain ⟨s1, d', s2, s3⟩ := hstep y d (some r) hd h3
  refine ⟨s1, d', s2, ?_, ?_⟩
  · nlinarith
  · show d' ≤ (C * f) ^ 2 ^ (i + 1) / C
    rw [le_div_iff₀ hC, pow_succ, pow_mul]
    have h4 : (C * d) ^ 2 ≤ ((C * f) ^ 2 ^ i) ^ 2 := pow_le_pow_left₀ (mul_nonneg hC.le hd0) h1 2
    have h5 : d' * C ≤ (C * d) ^ 2 := by
      have := mul_le_mul_of_nonneg_right s3 hC.le
      linarith [show C * d ^ 2 * C = (C * d) ^ 2 by ring]
    exact le_trans h5 h4

/-- **C248 (inexact linear solver).** The linear solver only reduces the residual of the linear system to the requested fraction `r`, so that a full step from a
solution with defect `d ≤ f` leaves a defect of at most `r d + C d^2`. The reductions that the solver requests suffice: with
`rho = max (MinLinearReduction) (1/10) + C f ≤ 3/4` the defect is at most `rho^i f` after `i` iterations, and `apply` returns as soon as `rho^k f` fulfils a criterion
and `k` iterations are allowed. -/
theorem C248_inexact (P : Problem K X) (q : Params K) (hforce : q.forceIteration = false) (habs : 0 < q.absoluteLimit)
    (hthr : q.reassembleThreshold = 0) (hmin : 0 < q.minLinearReduction)
    (hn : ∀ n e b, q.lineSearch = .hackbuschReusken n e b → 0 < n) (hok : ∀ y, P.jacobianOk y = true)
    (kept : Option (Option X)) (x : X) (f : K) (hf : P.defect x = some f) (C : K) (hC : 0 ≤ C) (hf0 : 0 ≤ f)
    (rho : K) (hrho : rho = max q.minLinearReduction (1 / 10) + C * f) (h34 : rho ≤ 3 / 4)
    (hstep : ∀ y d r, P.defect y = some d → d ≤ f → 0 < r → (P.solve (some y) y (some r)).1 = true ∧
      ∃ d', P.defect (y - (P.solve (some y) y (some r)).2.1) = some d' ∧ d' ≤ r * d + C * d ^ 2)
    (k : Nat) (hk : k ≤ q.maxIterations) (hcrit : rho ^ k * f < q.absoluteLimit ∨ rho ^ k * f < f * q.reduction) :
    (apply P q kept x).2 = none ∧ (apply P q kept x).1.result.iterations ≤ k ∧
    ∃ d, P.defect (apply P q kept x).1.solution = some d ∧ d ≤ rho ^ (apply P q kept x).1.result.iterations * f := by
  have hr0 : 0 ≤ rho := by
    rw [hrho]
    exact add_nonneg (le_trans hmin.le (le_max_left _ _)) (mul_nonneg hC hf0)
  refine apply_local P q hforce habs hthr hmin hn hok (fun i => rho ^ i * f) ?_ kept x f hf (by rw [pow_zero, one_mul]) k hk hcrit
  intro i y d r hd hlim hle hr1 hr2
  have hd0 : 0 ≤ d := le_trans habs.le hlim
  have h3 : d ≤ f := le_trans hle (mul_le_of_le_one_left hf0 (pow_le_one₀ hr0 (by linarith)))
  obtain ⟨s1, d', s2, s3⟩ := hstep y d r hd h3 hr1
  have h4 : d' ≤ rho * d := by
    have e1 := mul_le_mul_of_nonneg_right hr2 hd0
    have e2 : C * d ^ 2 ≤ C * f * d := by nlinarith [mul_le_mul_of_nonneg_left h3 (mul_nonneg hC hd0)]
    rw [hrho, add_mul]
    linarith
  refine ⟨s1, d', s2, le_trans h4 (mul_le_mul_of_nonneg_right h34 hd0), le_trans h4 ?_⟩
  show rho * d ≤ rho ^ (i + 1) * f
  rw [pow_succ, mul_comm (rho ^ i) rho, mul_assoc]
  exact mul_le_mul_of_nonneg_left hle hr0

/-- **C248 (last step).** Let `stop` be the larger of the two limits. If the quadratic part of the next defect is below nine tenths of `stop` and the reduction
taken from the previous step, `(d/p)^2`, leaves at most a tenth of it, then the next defect fulfils a stopping criterion: the reduction requested from the linear solver is
never stricter than a tenth of `stop`, and yet small enough. -/
theorem C248_last_step (q : Params K) (r : Result K) (f d p C d' l : K) (hf : r.firstDefect = some f) (hd : r.defect = some d) (hpos : 0 < d)
    (habs : 0 < q.absoluteLimit) (hfixed : q.fixedLinearReduction = false) (hlim : q.absoluteLimit ≤ f)
    (hl : linearReduction q r (some p) = some l) (hprev : d * d / (p * p) * d ≤ max (f * q.reduction) q.absoluteLimit / 10)
    (hstep : d' ≤ l * d + C * d ^ 2) (hC : C * d ^ 2 < 9 / 10 * max (f * q.reduction) q.absoluteLimit) :
    Criterion q r.firstDefect (some d') := by
  have hcond : q.fixedLinearReduction = false ∧ ¬ (r.iterations = 0 ∧ ltF r.firstDefect (some q.absoluteLimit) = true) := by
    refine ⟨hfixed, fun h => ?_⟩
    have h2 := h.2
    rw [hf, ltF_iff] at h2
    obtain ⟨a, b, ea, eb, hlt⟩ := h2
    cases ea; cases eb
    exact absurd hlt (not_lt.mpr hlim)
  unfold linearReduction at hl
  rw [if_pos hcond, hf, hd] at hl
  dsimp only at hl
  have hl' := Option.some.inj hl
  generalize hs : max (f * q.reduction) q.absoluteLimit = stop at hl' hprev hC
  have h1 : l * d ≤ stop / 10 := by
    rw [← hl']
    rcases le_total (stop / (10 * d)) (min q.minLinearReduction (d * d / (p * p))) with h | h
    · rw [max_eq_right h]
      refine le_trans (mul_le_mul_of_nonneg_right (min_le_right _ _) hpos.le) hprev
    · rw [max_eq_left h]
      rw [div_mul_eq_mul_div, div_le_div_iff₀ (by positivity) (by norm_num)]
      exact le_of_eq (by ring)
  have h2 : d' < stop := by linarith
  rw [hf]
  rw [← hs] at h2
  rcases lt_max_iff.mp h2 with h | h
  · exact Or.inr ⟨d', _, rfl, rfl, h⟩
  · exact Or.inl ⟨d', _, rfl, rfl, h⟩

end general

/-- Newton's method for the square root of two. -/
def newtonRoot : Problem ℚ ℚ := ⟨fun x => some |x ^ 2 - 2|, fun _ => true, fun m x _ => match m with
  | some y => (true, (x ^ 2 - 2) / (2 * y), 1)
  | none => (false, 0, 0)⟩

/-- The parameters with a reassembly in every step. -/
def newtonRootParams : Params ℚ := { newtonParams with
  reassembleThreshold := 0, lineSearch := .hackbuschReusken 10 (1 / 2) false, maxIterations := 40, absoluteLimit := 1 / 10 ^ 12, minLinearReduction := 1 / 1000,
  reduction := 1 / 10 ^ 8 }

theorem newtonRoot_step (y d : ℚ) (red : Option ℚ) (hd : newtonRoot.defect y = some d) (hf : d ≤ 1 / 4) :
    (newtonRoot.solve (some y) y red).1 = true ∧
      ∃ d', newtonRoot.defect (y - (newtonRoot.solve (some y) y red).2.1) = some d' ∧ d' ≤ 1 / 7 * d ^ 2 := by
  have e : |y ^ 2 - 2| = d := Option.some.inj hd
  refine ⟨rfl, _, rfl, ?_⟩
  show |(y - (y ^ 2 - 2) / (2 * y)) ^ 2 - 2| ≤ 1 / 7 * d ^ 2
  have h1 := (abs_le.mp (e.le.trans hf)).1
  have hy : y ≠ 0 := by
    rintro rfl
    norm_num at h1
  have e2 : (y - (y ^ 2 - 2) / (2 * y)) ^ 2 - 2 = (y ^ 2 - 2) ^ 2 / (4 * y ^ 2) := by
    field_simp
    ring
  rw [e2, abs_of_nonneg (by positivity), ← e, sq_abs, div_le_iff₀ (by positivity)]
  nlinarith [sq_nonneg (y ^ 2 - 2)]

/-- From 3/2, with `C = 1/7` and `f = 1/4`: three iterations suffice for a defect below `10^{-8}/4`. -/
example (kept : Option (Option ℚ)) : (apply newtonRoot newtonRootParams kept (3 / 2)).2 = none ∧
    (apply newtonRoot newtonRootParams kept (3 / 2)).1.result.iterations ≤ 3 := by
  have h := C248_quadratic newtonRoot newtonRootParams rfl (by decide +kernel) rfl (by decide +kernel) (by intro n e b h; cases h; decide) (fun _ => rfl) kept
    (3 / 2) (1 / 4) (by decide +kernel) (1 / 7) (by norm_num) (by norm_num) (by norm_num) newtonRoot_step 3 (by decide) (Or.inr (by decide +kernel))
  exact ⟨h.1, h.2.1⟩

/-- The same, as if the linear solver were inexact. -/
example (kept : Option (Option ℚ)) : (apply newtonRoot newtonRootParams kept (3 / 2)).2 = none :=
  (C248_inexact newtonRoot newtonRootParams rfl (by decide +kernel) rfl (by decide +kernel) (by intro n e b h; cases h; decide) (fun _ => rfl) kept
    (3 / 2) (1 / 4) (by decide +kernel) (1 / 7) (by norm_num) (by norm_num) (19 / 140) (by decide +kernel) (by norm_num)
    (fun y d r hd hf hr => by
      obtain ⟨h1, d', h2, h3⟩ := newtonRoot_step y d (some r) hd hf
      have h0 : 0 ≤ d := by
        rw [← Option.some.inj hd]
        exact abs_nonneg _
      exact ⟨h1, d', h2, by nlinarith [mul_nonneg hr.le h0]⟩) 10 (by decide) (Or.inr (by decide +kernel))).1

/-- The last step of a run: a reduction of `1/40000` is requested. -/
example : Criterion newtonRootParams (some (1 / 4)) (some (1 / 40000 * (1 / 10 ^ 5) + 1 / 7 * (1 / 10 ^ 5) ^ 2)) :=
  C248_last_step newtonRootParams { Result.clear with firstDefect := some (1 / 4), defect := some (1 / 10 ^ 5), iterations := 2 } (1 / 4) (1 / 10 ^ 5) (1 / 10)
    (1 / 7) _ (1 / 40000) rfl rfl (by norm_num) (by decide +kernel) rfl (by decide +kernel) (by decide +kernel) (by decide +kernel) le_rfl (by decide +kernel)

end Verif
