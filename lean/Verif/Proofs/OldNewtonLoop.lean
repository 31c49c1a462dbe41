import Verif.Proofs.OldNewton
/-
Helper lemmas for the loop of the deprecated Newton solver.
-/
namespace Verif.OldNewton

open Verif.Newton (ltF leF ratioGt)
open Verif.Newton.Spec (Lt Le Sufficient)
open Spec

variable {K X : Type} [Field K] [LinearOrder K] [AddCommGroup X] [Module K X]

theorem matrixAfter_append (m : Option X) (l l' : List (Ev K X)) : matrixAfter m (l ++ l') = matrixAfter (matrixAfter m l) l' := by
  induction l generalizing m with
  | nil => rfl
  | cons e l ih => cases e <;> exact ih _

theorem solves_append (l l' : List (Ev K X)) : solves (l ++ l') = solves l + solves l' := by
  induction l with
  | nil => simp [solves]
  | cons e l ih =>
    cases e
    · exact ih
    · simp only [List.cons_append, solves, ih]; omega

theorem linearIterations_append (l l' : List (Ev K X)) :
    Spec.linearIterations (l ++ l') = Spec.linearIterations l + Spec.linearIterations l' := by
  induction l with
  | nil => simp [Spec.linearIterations]
  | cons e l ih =>
    cases e
    · exact ih
    · simp only [List.cons_append, Spec.linearIterations, ih]; omega

theorem matrixUse_assemble {kept : Option X} {log : List (Ev K X)} (h : MatrixUse kept log) (x : X) :
    MatrixUse kept (log ++ [Ev.assemble x]) := by
  intro l₁ m y red reuse k l₂ he
  rcases List.eq_nil_or_concat l₂ with rfl | ⟨l, e, rfl⟩
  · have := List.append_inj_right' he rfl
    simp at this
  · rw [List.concat_eq_append, ← List.cons_append, ← List.append_assoc] at he
    exact h l₁ m y red reuse k l (List.append_inj_left' he rfl)

theorem matrixUse_solve {kept : Option X} {log : List (Ev K X)} (h : MatrixUse kept log) (m : Option X) (y : X) (red : Option K)
    (reuse : Bool) (k : Nat) (hm : m = matrixAfter kept log) (hr : reuse = false ↔ ∃ l₀, log = l₀ ++ [Ev.assemble y]) :
    MatrixUse kept (log ++ [Ev.linearSolve m y red reuse k]) := by
  intro l₁ m' y' red' reuse' k' l₂ he
  rcases List.eq_nil_or_concat l₂ with rfl | ⟨l, e, rfl⟩
  · have h1 := List.append_inj_left' he rfl
    have h2 := List.append_inj_right' he rfl
    simp only [List.cons.injEq, Ev.linearSolve.injEq, and_true] at h2
    obtain ⟨rfl, rfl, rfl, rfl, rfl⟩ := h2
    subst h1
    exact ⟨hm, hr⟩
  · rw [List.concat_eq_append, ← List.cons_append, ← List.append_assoc] at he
    exact h l₁ m' y' red' reuse' k' l (List.append_inj_left' he rfl)

/-- The quotient of the defects is the reported reduction. -/
def RedOk (r : Result K) : Prop := ∀ f d, r.firstDefect = some f → r.defect = some d → f ≠ 0 → r.reduction = some (d / f)

/-- What holds at the head of the loop. -/
structure Inv (P : Problem K X) (q : Params K) (hn : Bool) (kept : Option X) (first : Option K) (s : State K X) : Prop where
  def_ : s.result.defect = P.norm q.useMaxNorm s.solution
  fin : s.result.defect ≠ none
  fixed : point P hn s.solution = s.solution
  first_ : s.result.firstDefect = first
  red : RedOk s.result
  lin : s.result.linearIterations = Spec.linearIterations s.log
  its : s.result.iterations ≤ solves s.log
  jac : s.jacobian = some (matrixAfter kept s.log)
  use : MatrixUse kept s.log
  ends : ¬ ∃ l x, s.log = l ++ [Ev.assemble x]
  conv : s.result.converged = false

/-- What holds at the end. -/
structure Exit (P : Problem K X) (q : Params K) (hn : Bool) (kept : Option X) (first : Option K) (s : State K X) (e : Option Error) :
    Prop where
  def_ : s.result.defect = P.norm q.useMaxNorm s.solution
  fixed : point P hn s.solution = s.solution
  first_ : s.result.firstDefect = first
  red : e ≠ some .defect → RedOk s.result
  fin : e ≠ some .defect → s.result.defect ≠ none
  lin : s.result.linearIterations = Spec.linearIterations s.log
  its : s.result.iterations ≤ solves s.log
  use : MatrixUse kept s.log
  success : e = none → s.result.converged = true ∧ Criterion q first s.result.defect ∧ (q.forceIteration = true → 1 ≤ s.result.iterations) ∧
    s.jacobian = some (matrixAfter kept s.log)
  failure : e ≠ none → s.result.converged = false
  errors : e ≠ some .outOfFuel ∧ e ≠ some .undefined
  notConverged : e = some .notConverged → q.maxIterations ≤ s.result.iterations ∧ ¬ Criterion q first s.result.defect
  lineSearch : e = some .lineSearch → ∃ l red k, s.log = l ++ [Ev.assemble s.solution, Ev.linearSolve (some s.solution) s.solution red false k]
  defect : e = some .defect → s.result.defect = none ∧ (q.strategy = .noLineSearch ∨ q.forceIteration = true ∧ s.result.iterations = 0)

/-- The second state follows the first by a completed iteration. -/
structure Advance (P : Problem K X) (q : Params K) (hn : Bool) (s s' : State K X) : Prop where
  its : s'.result.iterations = s.result.iterations + 1
  solves : solves s'.log = solves s.log + 1
  step : ∃ z, LineSearchOutcome P q hn s.solution z s'.solution s'.result.defect none

/-- The second state follows the first by a failed line search with an old matrix. -/
structure Retry (q : Params K) (s s' : State K X) : Prop where
  its : s'.result = { s.result with linearIterations := s'.result.linearIterations }
  sol : s'.solution = s.solution
  prev : s'.prevDefect = s'.result.defect
  solves : solves s'.log = solves s.log + 1
  old : ratioGt s.result.defect s.prevDefect q.reassembleThreshold = false
  failed : q.strategy ≠ .noLineSearch ∧ ¬ Lt s.result.defect (some q.absLimit)

theorem terminate_false {q : Params K} {r : Result K} (hc : r.converged = false) (h : (terminate q r).2 = .ok false) :
    (terminate q r).1 = r ∧
      ((q.forceIteration = true ∧ r.iterations = 0) ∨ (¬ Criterion q r.firstDefect r.defect ∧ r.iterations < q.maxIterations)) := by
  unfold terminate at h ⊢
  by_cases hf : (q.forceIteration && r.iterations == 0) = true
  · rw [if_pos hf]
    simp only [Bool.and_eq_true, beq_iff_eq] at hf
    exact ⟨rfl, Or.inl hf⟩
  · rw [if_neg hf] at h ⊢
    simp only [] at h ⊢
    by_cases hm : r.iterations ≥ q.maxIterations ∧
        (ltF r.defect (some q.absLimit) || ltF r.defect (r.firstDefect.map (· * q.reduction))) = false
    · rw [if_pos hm] at h
      simp at h
    · rw [if_neg hm] at h ⊢
      have hcv : (ltF r.defect (some q.absLimit) || ltF r.defect (r.firstDefect.map (· * q.reduction))) = false := by
        simpa using h
      rw [hcv]
      refine ⟨?_, Or.inr ⟨?_, ?_⟩⟩
      · cases r
        cases hc
        rfl
      · rw [Bool.or_eq_false_iff] at hcv
        rintro (h' | h')
        · rw [(oLt_iff _ _).2 h'] at hcv
          simp at hcv
        · rw [(oLt_iff _ _).2 h'] at hcv
          simp at hcv
      · by_contra hlt
        exact hm ⟨Nat.le_of_not_lt hlt, hcv⟩

theorem terminate_true {q : Params K} {r : Result K} (h : (terminate q r).2 = .ok true) :
    (terminate q r).1 = { r with converged := true } ∧ Criterion q r.firstDefect r.defect ∧
      (q.forceIteration = true → 1 ≤ r.iterations) := by
  unfold terminate at h ⊢
  by_cases hf : (q.forceIteration && r.iterations == 0) = true
  · rw [if_pos hf] at h
    simp at h
  · rw [if_neg hf] at h ⊢
    simp only [] at h ⊢
    by_cases hm : r.iterations ≥ q.maxIterations ∧
        (ltF r.defect (some q.absLimit) || ltF r.defect (r.firstDefect.map (· * q.reduction))) = false
    · rw [if_pos hm] at h
      simp at h
    · rw [if_neg hm] at h ⊢
      have hcv : (ltF r.defect (some q.absLimit) || ltF r.defect (r.firstDefect.map (· * q.reduction))) = true := by
        simpa using h
      rw [hcv]
      refine ⟨rfl, ?_, ?_⟩
      · rw [Bool.or_eq_true] at hcv
        exact hcv.imp (oLt_iff _ _).1 (oLt_iff _ _).1
      · intro hfo
        rw [hfo] at hf
        simp only [Bool.true_and, beq_iff_eq] at hf
        omega

theorem terminate_error {q : Params K} {r : Result K} {e : Error} (hc : r.converged = false) (h : (terminate q r).2 = .error e) :
    e = .notConverged ∧ (terminate q r).1 = r ∧ q.maxIterations ≤ r.iterations ∧ ¬ Criterion q r.firstDefect r.defect := by
  unfold terminate at h ⊢
  by_cases hf : (q.forceIteration && r.iterations == 0) = true
  · rw [if_pos hf] at h
    simp at h
  · rw [if_neg hf] at h ⊢
    simp only [] at h ⊢
    by_cases hm : r.iterations ≥ q.maxIterations ∧
        (ltF r.defect (some q.absLimit) || ltF r.defect (r.firstDefect.map (· * q.reduction))) = false
    · rw [if_pos hm] at h ⊢
      have hcv := hm.2
      rw [hcv]
      refine ⟨?_, ?_, hm.1, ?_⟩
      · simp only [Except.error.injEq] at h
        exact h.symm
      · cases r
        cases hc
        rfl
      · rw [Bool.or_eq_false_iff] at hcv
        rintro (h' | h')
        · rw [(oLt_iff _ _).2 h'] at hcv
          simp at hcv
        · rw [(oLt_iff _ _).2 h'] at hcv
          simp at hcv
    · rw [if_neg hm] at h
      simp at h

/-- The state in which `finish` starts: the matrix was assembled just before, or not. -/
structure Ready (P : Problem K X) (q : Params K) (hn : Bool) (kept : Option X) (first : Option K) (s : State K X) : Prop where
  def_ : s.result.defect = P.norm q.useMaxNorm s.solution
  fin : s.result.defect ≠ none
  fixed : point P hn s.solution = s.solution
  first_ : s.result.firstDefect = first
  red : RedOk s.result
  lin : s.result.linearIterations = Spec.linearIterations s.log
  its : s.result.iterations ≤ solves s.log
  jac : s.jacobian = some (matrixAfter kept s.log)
  use : MatrixUse kept s.log
  ends : s.reassembled = true ↔ ∃ l, s.log = l ++ [Ev.assemble s.solution]
  conv : s.result.converged = false
  go : (q.forceIteration = true ∧ s.result.iterations = 0) ∨ (¬ Criterion q first s.result.defect ∧ s.result.iterations < q.maxIterations)

theorem not_ends_solve (l : List (Ev K X)) (m y red reuse k) : ¬ ∃ l' x, l ++ [Ev.linearSolve m y red reuse k] = l' ++ [Ev.assemble x] := by
  rintro ⟨l', x, h⟩
  have := List.append_inj_right' h rfl
  simp at this

theorem finish_spec (P : Problem K X) (q : Params K) (hn : Bool) (hi : Idempotent P) (kept : Option X) (first : Option K) (s : State K X)
    (h : Ready P q hn kept first s) :
    (∀ s' e, finish P q hn s.solution s = .inl (s', e) → Exit P q hn kept first s' e ∧ solves s'.log = solves s.log + 1 ∧ e ≠ none ∧
      s'.result.iterations = s.result.iterations ∧ (e ≠ some .defect → s'.solution = s.solution)) ∧
    (∀ s', finish P q hn s.solution s = .inr s' → Inv P q hn kept first s' ∧
      (Advance P q hn s s' ∨
        (s.reassembled = false ∧ s'.result = { s.result with linearIterations := s'.result.linearIterations } ∧ s'.solution = s.solution ∧
          s'.prevDefect = s'.result.defect ∧ solves s'.log = solves s.log + 1 ∧ q.strategy ≠ .noLineSearch ∧
          ¬ Lt s.result.defect (some q.absLimit)))) := by
  obtain ⟨sol, res, prev, jac, rea, log⟩ := s
  obtain ⟨def_, fin, fixed, hfirst, red, lin, its, hjac, use, ends, conv, go⟩ := h
  dsimp only at def_ fin fixed hfirst red lin its hjac use ends conv go
  subst hjac
  unfold finish
  dsimp only [Option.getD_some]
  generalize linearReduction q res prev = rd
  rcases hout : P.solve (matrixAfter kept log) sol rd (!rea) with ⟨ok, z, k⟩
  dsimp only
  have huse : MatrixUse kept (log ++ [Ev.linearSolve (matrixAfter kept log) sol rd (!rea) k]) := by
    apply matrixUse_solve use _ _ _ _ _ rfl
    rw [← ends]
    cases rea <;> simp
  have hsol : solves (log ++ [Ev.linearSolve (matrixAfter kept log) sol rd (!rea) k]) = solves log + 1 := by
    rw [solves_append]; rfl
  have hlin : res.linearIterations + k = Spec.linearIterations (log ++ [Ev.linearSolve (matrixAfter kept log) sol rd (!rea) k]) := by
    rw [linearIterations_append, lin]; rfl
  have hmat : matrixAfter kept (log ++ [Ev.linearSolve (matrixAfter kept log) sol rd (!rea) k]) = matrixAfter kept log := by
    rw [matrixAfter_append]; rfl
  rcases ok with _ | _
  · refine ⟨?_, by simp⟩
    rintro s' e he
    simp only [Sum.inl.injEq, Prod.mk.injEq] at he
    obtain ⟨rfl, rfl⟩ := he
    refine ⟨⟨def_, fixed, hfirst, fun _ => red, fun _ => fin, hlin, ?_, huse, by simp, fun _ => conv, by simp, by simp, by simp, by simp⟩,
      hsol, by simp, rfl, fun _ => rfl⟩
    dsimp only
    rw [hsol]; omega
  · have hls := lineSearch_spec P q hn hi sol z fixed (def_ ▸ fin)
    rw [← def_] at hls
    rcases hL : lineSearch P q hn res.defect ⟨sol, res.defect⟩ z with ⟨⟨sol', d'⟩, e⟩
    rw [hL] at hls
    dsimp only at hls ⊢
    rcases hls.errors with rfl | rfl | rfl
    · obtain ⟨hfin, _⟩ := hls.success rfl
      refine ⟨by simp, ?_⟩
      intro s' hs'
      simp only [Sum.inr.injEq] at hs'
      subst hs'
      refine ⟨⟨hls.consistent, hfin, hls.fixed, hfirst, ?_, hlin, ?_, ?_, huse, not_ends_solve _ _ _ _ _ _, conv⟩, Or.inl ⟨rfl, hsol, z, hls⟩⟩
      · intro f d hf hd hf0
        dsimp only at hf hd ⊢
        rw [hf, hd]
        dsimp only
        rw [if_neg hf0]
      · dsimp only; rw [hsol]; omega
      · dsimp only; rw [hmat]
    · obtain ⟨hst, hlim, hsame, _, _⟩ := hls.failure rfl
      dsimp only
      have hdd : d' = res.defect := by rw [hls.consistent, hsame, def_]
      rw [← def_] at hlim
      subst hsame hdd
      cases rea
      · refine ⟨by simp, ?_⟩
        intro s' hs'
        simp only [Bool.false_eq_true, if_false, Sum.inr.injEq] at hs'
        subst hs'
        refine ⟨⟨def_, fin, fixed, hfirst, red, hlin, ?_, ?_, huse, not_ends_solve _ _ _ _ _ _, conv⟩,
          Or.inr ⟨rfl, rfl, rfl, rfl, hsol, hst, hlim⟩⟩
        · dsimp only; rw [hsol]; omega
        · dsimp only; rw [hmat]
      · refine ⟨?_, by simp⟩
        rintro s' e he
        simp only [if_true, Sum.inl.injEq, Prod.mk.injEq] at he
        obtain ⟨rfl, rfl⟩ := he
        refine ⟨⟨def_, fixed, hfirst, fun _ => red, fun _ => fin, hlin, ?_, huse, by simp, fun _ => conv, by simp, by simp, ?_, by simp⟩,
          hsol, by simp, rfl, fun _ => rfl⟩
        · dsimp only; rw [hsol]; omega
        · intro _
          obtain ⟨l, hl⟩ := ends.1 rfl
          refine ⟨l, rd, k, ?_⟩
          dsimp only
          have hm : matrixAfter kept log = some sol' := by rw [hl, matrixAfter_append]; rfl
          rw [hm]
          conv_lhs => rw [hl]
          simp
    · obtain ⟨hc, hx', hd'⟩ := hls.notFinite rfl
      refine ⟨?_, by simp⟩
      rintro s' e he
      simp only [Sum.inl.injEq, Prod.mk.injEq] at he
      obtain ⟨rfl, rfl⟩ := he
      refine ⟨⟨hls.consistent, hls.fixed, hfirst, by simp, by simp, hlin, ?_, huse, by simp, fun _ => conv, by simp, by simp, by simp, ?_⟩,
        hsol, by simp, rfl, by simp⟩
      · dsimp only; rw [hsol]; omega
      · intro _
        refine ⟨hd', ?_⟩
        rcases hc with hc | hc
        · exact Or.inl hc
        · refine Or.inr ?_
          rcases go with hgo | ⟨hgo, _⟩
          · exact hgo
          · exact absurd (Or.inl (def_ ▸ hc)) hgo

theorem iter_spec (P : Problem K X) (q : Params K) (hn : Bool) (hi : Idempotent P) (kept : Option X) (first : Option K) (s : State K X)
    (h : Inv P q hn kept first s) :
    (∀ s' e, iter P q hn (some hn) s = .inl (s', e) → Exit P q hn kept first s' e ∧
      (solves s'.log = solves s.log ∨
        solves s'.log = solves s.log + 1 ∧ s.result.iterations < bound q) ∧ s'.result.iterations = s.result.iterations ∧
      (e ≠ some .defect → s'.result.defect = s.result.defect)) ∧
    (∀ s', iter P q hn (some hn) s = .inr s' → Inv P q hn kept first s' ∧ s.result.iterations < bound q ∧
      (Advance P q hn s s' ∨ Retry q s s')) := by
  unfold iter
  dsimp only
  have hgo : ∀ r : Result K, ((q.forceIteration = true ∧ r.iterations = 0) ∨ (¬ Criterion q first r.defect ∧ r.iterations < q.maxIterations)) →
      r.iterations < bound q := by
    intro r hr
    unfold bound
    rcases hr with ⟨h1, h2⟩ | ⟨_, h2⟩
    · rw [if_pos h1]; omega
    · split <;> omega
  rcases ht : (terminate q s.result).2 with e | (_ | _)
  · obtain ⟨he, hr, hm, hcr⟩ := terminate_error h.conv ht
    subst he
    refine ⟨?_, by simp⟩
    rintro s' e he
    simp only [Sum.inl.injEq, Prod.mk.injEq] at he
    obtain ⟨rfl, rfl⟩ := he
    rw [hr]
    exact ⟨⟨h.def_, h.fixed, h.first_, fun _ => h.red, fun _ => h.fin, h.lin, h.its, h.use, by simp, fun _ => h.conv, by simp,
      fun _ => ⟨hm, h.first_ ▸ hcr⟩, by simp, by simp⟩, Or.inl rfl, rfl, fun _ => rfl⟩
  · obtain ⟨hr, hcr⟩ := terminate_false h.conv ht
    dsimp only
    rw [hr, h.first_] at *
    unfold reassemble
    dsimp only
    by_cases hra : ratioGt s.result.defect s.prevDefect q.reassembleThreshold = true
    · rw [if_pos hra]
      have hpt : (if hn = true then P.fix s.solution else s.solution) = s.solution := h.fixed
      rw [hpt]
      have huse := matrixUse_assemble h.use s.solution
      have hsv : solves (s.log ++ [Ev.assemble s.solution]) = solves s.log := by rw [solves_append]; rfl
      have hli : Spec.linearIterations (s.log ++ [Ev.assemble s.solution]) = Spec.linearIterations s.log := by
        rw [linearIterations_append]; rfl
      by_cases hok : P.jacobianOk s.solution = true
      · rw [if_pos hok]
        dsimp only
        have hready : Ready P q hn kept first { s with jacobian := some (some s.solution), reassembled := true,
                                                       log := s.log ++ [Ev.assemble s.solution] } :=
          ⟨h.def_, h.fin, h.fixed, h.first_, h.red, by rw [hli]; exact h.lin, by rw [hsv]; exact h.its,
            by rw [matrixAfter_append]; rfl, huse, ⟨fun _ => ⟨s.log, rfl⟩, fun _ => rfl⟩, h.conv, hcr⟩
        obtain ⟨f1, f2⟩ := finish_spec P q hn hi kept first _ hready
        refine ⟨fun s' e he => ?_, fun s' he => ?_⟩
        · obtain ⟨g1, g2, g3, g4, g5⟩ := f1 s' e he
          dsimp only at g2 g4 g5
          refine ⟨g1, Or.inr ⟨by rw [g2, hsv], hgo _ hcr⟩, g4, fun hne => ?_⟩
          rw [g1.def_, g5 hne, h.def_]
        · obtain ⟨g1, g2⟩ := f2 s' he
          refine ⟨g1, hgo _ hcr, ?_⟩
          rcases g2 with g2 | g2
          · exact Or.inl ⟨g2.its, by rw [g2.solves, hsv], g2.step⟩
          · simp at g2
      · rw [if_neg hok]
        refine ⟨?_, by simp⟩
        rintro s' e he
        simp only [Sum.inl.injEq, Prod.mk.injEq] at he
        obtain ⟨rfl, rfl⟩ := he
        exact ⟨⟨h.def_, h.fixed, h.first_, fun _ => h.red, fun _ => h.fin, by dsimp only; rw [hli]; exact h.lin,
          by dsimp only; rw [hsv]; exact h.its, huse, by simp, fun _ => h.conv, by simp, by simp, by simp, by simp⟩,
          Or.inl hsv, rfl, fun _ => rfl⟩
    · rw [if_neg hra]
      dsimp only
      have hready : Ready P q hn kept first { s with reassembled := false } :=
        ⟨h.def_, h.fin, h.fixed, h.first_, h.red, h.lin, h.its, h.jac, h.use,
          ⟨by simp, fun ⟨l, hl⟩ => absurd ⟨l, _, hl⟩ h.ends⟩, h.conv, hcr⟩
      obtain ⟨f1, f2⟩ := finish_spec P q hn hi kept first _ hready
      refine ⟨fun s' e he => ?_, fun s' he => ?_⟩
      · obtain ⟨g1, g2, g3, g4, g5⟩ := f1 s' e he
        dsimp only at g2 g4 g5
        refine ⟨g1, Or.inr ⟨g2, hgo _ hcr⟩, g4, fun hne => ?_⟩
        rw [g1.def_, g5 hne, h.def_]
      · obtain ⟨g1, g2⟩ := f2 s' he
        refine ⟨g1, hgo _ hcr, ?_⟩
        rcases g2 with g2 | ⟨_, g2, g3, g4, g5, g6, g7⟩
        · exact Or.inl ⟨g2.its, g2.solves, g2.step⟩
        · exact Or.inr ⟨g2, g3, g4, g5, by simpa using hra, g6, g7⟩
  · obtain ⟨hr, hcr, hfo⟩ := terminate_true ht
    refine ⟨?_, by simp⟩
    rintro s' e he
    simp only [Sum.inl.injEq, Prod.mk.injEq] at he
    obtain ⟨rfl, rfl⟩ := he
    rw [hr]
    exact ⟨⟨h.def_, h.fixed, h.first_, fun _ => h.red, fun _ => h.fin, h.lin, h.its, h.use, fun _ => ⟨rfl, h.first_ ▸ hcr, hfo, h.jac⟩, by simp, by simp,
      by simp, by simp, by simp⟩, Or.inl rfl, rfl, fun _ => rfl⟩

end Verif.OldNewton
