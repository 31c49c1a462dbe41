import Verif.Spec.NewtonStep
import Verif.Proofs.TransientSolve
import Verif.Props.NewtonSolve
import Mathlib.Algebra.QuadraticDiscriminant
/-
Helper lemmas for C249.
-/
namespace Verif.NewtonStep
open Constraints Assembly ConstrainedSolve NewtonSolve TransientSolve
open OneStep (Kind Setting St Scheme DTMode NoTinyCoefficients factors)

section loop
variable {σ X T : Type} [Add T]

/-- If all stages succeed, each of them has what its solver guarantees on success. -/
theorem loop_success (E : OneStep.Env σ X T) (hpre : ∀ r xs, E.preStageOk r xs = true) (hinit : ∀ r mem i, i ≠ r → E.initStage r mem i = mem i)
    (mem0 : Nat → X) (Good : Nat → (Nat → X) → Prop) (hloc : ∀ r m m', (∀ i, i ≤ r → m i = m' i) → Good r m → Good r m')
    (hsol : ∀ st r mem, 1 ≤ r → r ≤ E.s → (r = 1 → mem = mem0) → (E.solve st r ((List.range r).map mem) (E.initStage r mem r)).2.1 = true →
      Good r (OneStep.upd mem r (E.solve st r ((List.range r).map mem) (E.initStage r mem r)).2.2.1)) :
    ∀ n r (R : OneStep.Run σ X T), 1 ≤ r → r + n = E.s + 1 → (r = 1 → R.mem = mem0) → (∀ q, 1 ≤ q → q < r → Good q R.mem) →
      (OneStep.stageLoop E n r R).1 = .success →
      (∀ q, 1 ≤ q → q ≤ E.s → Good q (OneStep.stageLoop E n r R).2.mem) ∧ ∀ i, i < r → (OneStep.stageLoop E n r R).2.mem i = R.mem i := by
  intro n
  induction n with
  | zero =>
    intro r R h1 h2 _ h3 _
    exact ⟨fun q a b => h3 q a (by omega), fun _ _ => rfl⟩
  | succ n ih =>
    intro r R h1 h2 h0 h3 hsucc
    unfold OneStep.stageLoop at hsucc ⊢
    dsimp only at hsucc ⊢
    rw [if_neg (by rw [hpre]; decide)] at hsucc ⊢
    by_cases hok : (E.solve R.st r ((List.range r).map R.mem) (E.initStage r R.mem r)).2.1 = true
    · rw [if_pos hok] at hsucc ⊢
      have hgood := hsol R.st r R.mem h1 (by omega) h0 hok
      have hmem : ∀ i, i < r → OneStep.upd (E.initStage r R.mem) r (E.solve R.st r ((List.range r).map R.mem) (E.initStage r R.mem r)).2.2.1 i = R.mem i := by
        intro i hi
        unfold OneStep.upd
        rw [if_neg (by omega), hinit r R.mem i (by omega)]
      obtain ⟨e2, e3⟩ := ih (r + 1) ⟨OneStep.upd (E.initStage r R.mem) r (E.solve R.st r ((List.range r).map R.mem) (E.initStage r R.mem r)).2.2.1, _, _, _⟩
        (by omega) (by omega) (by omega) (by
          intro q hq1 hq2
          by_cases hq : q = r
          · subst hq
            refine hloc q _ _ (fun i hi => ?_) hgood
            by_cases hi' : i = q
            · subst hi'
              simp [OneStep.upd]
            · change _ = OneStep.upd (E.initStage q R.mem) q _ i
              rw [hmem i (by omega)]
              unfold OneStep.upd
              rw [if_neg hi']
          · exact hloc q R.mem _ (fun i hi => (hmem i (by omega)).symm) (h3 q hq1 (by omega))) hsucc
      exact ⟨e2, fun i hi => (e3 i (by omega)).trans (hmem i hi)⟩
    · rw [if_neg hok] at hsucc
      cases hsucc

end loop

section generic
variable {I K : Type} [DecidableEq I] [Fintype I] [Field K] [LinearOrder K] [IsStrictOrderedRing K]

theorem const_congr (t : Trafo I K) (P : Setting K) (L0 L1 : LocalParts I K) (trace : List (Kind × Nat)) (x y : Nat → I → K) (st : St K (I → K) (I → K))
    (ht : NoTinyCoefficients P.scheme P.stage) (h : ∀ s, s < P.stage → x s = y s) :
    stageConst t P L0 L1 trace x st = stageConst t P L0 L1 trace y st := by
  unfold stageConst
  rw [preStage_const P _ _ _ trace st ht, preStage_const P _ _ _ trace st ht]
  congr 1
  refine Finset.sum_congr rfl fun s hs => ?_
  rw [h s (Finset.mem_range.mp hs)]

theorem stageProblem_eq (t : Trafo I K) (symmetric : Bool) (ci0 : Nat → I) (pattern : List (PatternPart I)) (P : Setting K) (L0 L1 : LocalParts I K)
    (hL : NoPost L1) (trace : List (Kind × Nat)) (const : I → K) (norm : (I → K) → K) (solve : Matrix I K → (I → K) → Option K → Bool × (I → K) × Nat)
    (unassembled : (I → K) → Option K → Bool × (I → K) × Nat) (ht : P.scheme.b P.stage P.stage = 0 ∨ |P.scheme.b P.stage P.stage| > 1 / 1000000) (i0 : I) :
    stageProblem t symmetric ci0 pattern P L0 L1 trace const norm solve unassembled =
      problem t symmetric ci0 pattern (stageParts P L0 L1 trace ++ [constPart i0 const]) norm solve unassembled := by
  have hj : jacobian t symmetric ci0 pattern (stageParts P L0 L1 trace ++ [constPart i0 const]) = jacobian t symmetric ci0 pattern (stageParts P L0 L1 trace) :=
    funext fun x => jacobian_const t symmetric ci0 pattern _ i0 const x
  unfold stageProblem problem
  simp only [hj, ← stage_residual i0 P L0 L1 hL trace const _ ht]
  congr 1

/-- The stage is strongly monotone if the temporal operator is and the spatial one is monotone. -/
theorem stage_monotone (t : Trafo I K) (P : Setting K) (L0 L1 : LocalParts I K) (hL : NoPost L1) (trace : List (Kind × Nat))
    (ht : P.scheme.b P.stage P.stage = 0 ∨ |P.scheme.b P.stage P.stage| > 1 / 1000000) (hb : 0 ≤ P.scheme.b P.stage P.stage) (hdt : 0 < P.dt) (mu : K)
    (h1 : StronglyMonotone t (partsAt L1 trace (P.time + P.scheme.d P.stage * P.dt)) mu)
    (h0 : Monotone t (partsAt L0 trace (P.time + P.scheme.d P.stage * P.dt))) (i0 : I) (c : I → K) :
    StronglyMonotone t (stageParts P L0 L1 trace ++ [constPart i0 c]) ((factors P.mode P.dt).2 * mu) := by
  intro x y hx hy hd
  have hf : 0 < (factors P.mode P.dt).1 ∧ 0 < (factors P.mode P.dt).2 := by cases P.mode <;> simp [factors, hdt]
  rw [form_append, form_append, constPart_form, constPart_form, stageParts_form P L0 L1 hL trace _ _ ht, stageParts_form P L0 L1 hL trace _ _ ht]
  have e := OneStep.factors_eq P
  have e0 : (factors P.mode P.dt).1 = P.factor0 := by rw [e]
  have e1 : (factors P.mode P.dt).2 = P.factor1 := by rw [e]
  rw [e0, e1] at hf
  rw [e1, mul_assoc]
  have a1 := mul_le_mul_of_nonneg_left (h1 x y hx hy hd) hf.2.le
  have a0 := mul_nonneg (mul_nonneg hb hf.1.le) (h0 x y hx hy hd)
  rw [mul_sub] at a1 a0
  linarith

/-- Testing the residual with a test function. -/
theorem form_le {t : Trafo I K} (h : Admissible t) (parts : List (Part I K)) (norm : (I → K) → K) (hn : TwoNorm t norm) (x w : I → K) (hw : Homogeneous t w) :
    |form parts x w| ≤ norm (residual t parts x) * norm w := by
  rw [form_residual h parts x w hw]
  have h2 := Finset.sum_mul_sq_le_sq_mul_sq Finset.univ w (residual t parts x)
  obtain ⟨h3, h4⟩ := hn w hw.2
  obtain ⟨h5, h6⟩ := hn (residual t parts x) fun k hk => residual_constrained t parts x k ⟨_, hk⟩
  rw [← h4, ← h6, ← mul_pow] at h2
  rw [mul_comm (norm _)]
  exact abs_le_of_sq_le_sq h2 (mul_nonneg h3 h5)

omit [DecidableEq I] [Fintype I] in
/-- Cauchy-Schwarz for the mass operator. -/
theorem Mass.cauchy {t : Trafo I K} {m : (I → K) → (I → K) → K} {norm N : (I → K) → K} {sigma : K} (h : Mass t m norm N sigma) (a b : I → K) :
    m a b ≤ N a * N b := by
  have key : ∀ c : K, 0 ≤ m b b * (c * c) + (-(2 * m a b)) * c + m a a := by
    intro c
    have e : m (fun k => a k - c * b k) (fun k => a k - c * b k) = m b b * (c * c) + (-(2 * m a b)) * c + m a a := by
      rw [h.sub, h.smul, h.symm a, h.symm b, h.sub, h.sub, h.smul, h.smul, h.symm b a]
      ring
    rw [← e, ← h.norm_sq]
    exact sq_nonneg _
  have hd := discrim_le_zero key
  unfold discrim at hd
  have h2 : m a b ^ 2 ≤ (N a * N b) ^ 2 := by
    rw [mul_pow, h.norm_sq, h.norm_sq]
    nlinarith
  exact le_trans (le_abs_self _) (abs_le_of_sq_le_sq h2 (mul_nonneg (h.norm_nonneg a) (h.norm_nonneg b)))

theorem guess_spec {t : Trafo I K} (h : Admissible t) (g : Nat → I → K) (s r : Nat) (mem : Nat → I → K) (hr : r ≤ s) (hr1 : 1 ≤ r) :
    IsGuess t (g r) (if r = 1 then mem s else mem (r - 1))
      (OneStep.initInterpolate (fun k => (find? k t.rows).isSome) g s r mem r) := by
  intro k
  refine ⟨fun ⟨row, hk⟩ => ?_, fun hk => ?_⟩
  · have hf : (find? k t.rows).isSome = true := by rw [(find?_iff_mem k row _ h.keys).mpr hk]; rfl
    unfold OneStep.initInterpolate OneStep.gridInterpolate
    simp [OneStep.upd, OneStep.copyFree, hf]
  · have hf : (find? k t.rows).isSome = false := by
      cases hfk : find? k t.rows with
      | none => rfl
      | some row => exact absurd ⟨row, (find?_iff_mem k row _ h.keys).mp hfk⟩ hk
    unfold OneStep.initInterpolate OneStep.gridInterpolate
    by_cases h1 : r = 1
    · subst h1
      by_cases hs : s = 1
      · subst hs
        simp [OneStep.upd, OneStep.copyFree, hf]
      · simp [OneStep.upd, OneStep.copyFree, hf, hs]
    · have h2 : ¬ r - 1 = r := by omega
      simp [OneStep.upd, OneStep.copyFree, hf, h1, h2]

omit [Fintype I] [DecidableEq I] in
theorem euler_d : (OneStep.implicitEuler : Scheme K).d 1 = 1 := by
  simp [Scheme.d, OneStep.implicitEuler, OneStep.oneStepTheta]

theorem euler_stages : LocalOp.FEM.SolvableStages (OneStep.implicitEuler : Scheme K) := by
  intro r h1 h2
  have hr : r = 1 := le_antisymm h2 h1
  subst hr
  refine ⟨by simp [Scheme.a, OneStep.implicitEuler, OneStep.oneStepTheta], by simp [Scheme.b, OneStep.implicitEuler, OneStep.oneStepTheta], fun s hs => ?_⟩
  interval_cases s <;> simp [Scheme.a, Scheme.b, OneStep.implicitEuler, OneStep.oneStepTheta] <;> norm_num

/-- The equation of an implicit Euler step. -/
theorem euler_form (time dt : K) (mode : DTMode) (L0 L1 : LocalParts I K) (trace : List (Kind × Nat)) (m : (I → K) → (I → K) → K)
    (hL1 : ∀ τ x w, form (partsAt L1 trace τ) x w = m x w) (a b w : I → K) :
    stageForm ⟨OneStep.implicitEuler, time, dt, mode, 1⟩ L0 L1 trace (two a b) w =
      (factors mode dt).2 * (m b w - m a w) + (factors mode dt).1 * form (partsAt L0 trace (time + dt)) b w := by
  unfold stageForm
  rw [Finset.sum_range_succ, Finset.sum_range_succ, Finset.sum_range_zero]
  simp only [hL1, two]
  simp [Scheme.a, Scheme.b, Scheme.d, OneStep.implicitEuler, OneStep.oneStepTheta]
  ring

/-- Two implicit Euler steps, one of them inexact. -/
theorem euler_step (t : Trafo I K) (hdir : ∀ k row, (k, row) ∈ t.rows → row = []) (time dt : K) (hdt : 0 < dt) (mode : DTMode) (L0 L1 : LocalParts I K)
    (trace : List (Kind × Nat)) (hmono : Monotone t (partsAt L0 trace (time + dt))) (m : (I → K) → (I → K) → K) (norm N : (I → K) → K) (sigma : K)
    (hsigma : 0 < sigma) (hm : Mass t m norm N sigma) (hL1 : ∀ τ x w, form (partsAt L1 trace τ) x w = m x w) (hnorm : TwoNorm t norm) (a b a' b' : I → K) (d : K)
    (hd0 : 0 ≤ d) (hD : ∀ k, t.Dirichlet k → b k = b' k)
    (hb : ∀ w, Homogeneous t w → |stageForm ⟨OneStep.implicitEuler, time, dt, mode, 1⟩ L0 L1 trace (two a b) w| ≤ d * norm w)
    (hb' : ∀ w, Homogeneous t w → stageForm ⟨OneStep.implicitEuler, time, dt, mode, 1⟩ L0 L1 trace (two a' b') w = 0) :
    N (fun i => b i - b' i) ≤ N (fun i => a i - a' i) + d / ((factors mode dt).2 * sigma) := by
  have hf : 0 < (factors mode dt).1 ∧ 0 < (factors mode dt).2 := by cases mode <;> simp [factors, hdt]
  have hw : Homogeneous t fun k => b k - b' k := ⟨dirichlet_conforming hdir _, fun k hk => by simp only [hD k hk, sub_self]⟩
  have h1 := hb _ hw
  have h2 := hb' _ hw
  have h3 := hmono b b' (dirichlet_conforming hdir _) (dirichlet_conforming hdir _) hD
  rw [euler_form time dt mode L0 L1 trace m hL1] at h1 h2
  have h4 := hm.cauchy (fun k => a k - a' k) fun k => b k - b' k
  have h5 := hm.dominates (fun k => b k - b' k) hw.2
  have h6 := (hnorm (fun k => b k - b' k) hw.2).1
  have h7 := hm.norm_sq fun k => b k - b' k
  rw [hm.sub] at h4 h7
  have h8 := hm.norm_nonneg fun k => b k - b' k
  have h9 := hm.norm_nonneg fun k => a k - a' k
  generalize (fun k => b k - b' k) = e' at *
  generalize N (fun k => a k - a' k) = n at *
  generalize (factors mode dt).1 = f0 at *
  generalize (factors mode dt).2 = f1 at *
  have h10 := le_trans (le_abs_self _) h1
  have h11 := mul_nonneg hf.1.le h3
  have h12 : f1 * N e' ^ 2 ≤ f1 * (n * N e') + d * norm e' := by
    have := mul_le_mul_of_nonneg_left h4 hf.2.le
    rw [h7]
    nlinarith
  have hfs : 0 < f1 * sigma := mul_pos hf.2 hsigma
  rw [← sub_le_iff_le_add', le_div_iff₀ hfs]
  by_cases h0 : N e' = 0
  · rw [h0]
    have := mul_nonneg h9 hfs.le
    nlinarith
  · have hpos : 0 < N e' := lt_of_le_of_ne h8 (Ne.symm h0)
    have h13 : sigma * (d * norm e') ≤ d * N e' := by
      have := mul_le_mul_of_nonneg_left h5 hd0
      linarith [show sigma * (d * norm e') = d * (sigma * norm e') by ring]
    have h14 := mul_le_mul_of_nonneg_left h12 hsigma.le
    refine le_of_mul_le_mul_left ?_ hpos
    linarith [show N e' * ((N e' - n) * (f1 * sigma)) = sigma * (f1 * N e' ^ 2) - sigma * (f1 * (n * N e')) by ring,
      mul_comm d (N e'), mul_add sigma (f1 * (n * N e')) (d * norm e')]

end generic

end Verif.NewtonStep
