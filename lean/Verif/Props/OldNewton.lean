import Verif.Proofs.OldNewtonApply
import Mathlib.Algebra.Order.Ring.Rat
import Mathlib.Algebra.Field.Rat
/-
Properties C209 to C213: the deprecated Newton solver.
-/
namespace Verif

open OldNewton OldNewton.Spec
open Newton.Spec (Lt Le Sufficient)

variable {K X : Type} [Field K] [LinearOrder K] [IsStrictOrderedRing K] [AddCommGroup X] [Module K X]

omit [IsStrictOrderedRing K] in
/-- C209 (flags for hanging nodes set alike in both bases; runs that end). Whatever the object did before, after `apply`:
the reported defect is that of the returned solution, whose hanging nodes are modified; the linear iterations are those of all linear solves.
If the initial residual is not a number, that is reported by an exception and nothing else is done. Otherwise the first defect is that of the
initial guess; if `apply` returns, the termination criterion holds, `converged` is set, the reduction is the quotient of the defects (if the first
one is not zero), a forced iteration was made, and a matrix to be kept is the one assembled last; if it throws, `converged` is not set, and the
exception is for good reason. Missing: flags that are not set (`C209_uninitialised_false`) or differ (`C209_flags_differ_false`), the first defect if
the initial residual is not a number (`C209_stale_first_defect_false`). -/
theorem C209_newton_partial (P : Problem K X) (q : Params K) (hn : Bool) (hi : Idempotent P) (o : Obj K X) (x : X) (n : Nat)
    (hs : o.hnSolver = some hn) (hp : o.hnPrepare = some hn) (hend : (apply P q n o x).error ≠ some .outOfFuel) :
    let out := apply P q n o x
    let r := out.obj.result
    let initial := P.norm q.useMaxNorm (point P hn x)
    getResult out.obj = some r ∧ r.defect = P.norm q.useMaxNorm out.solution ∧ point P hn out.solution = out.solution ∧
    r.linearIterations = linearIterations out.log ∧ r.iterations ≤ solves out.log ∧
    (initial = none → out.error = some .defect ∧ out.log = [] ∧ out.solution = point P hn x ∧ r.converged = false) ∧
    (initial ≠ none →
      r.firstDefect = initial ∧
      (out.error = none → r.converged = true ∧ Criterion q initial r.defect ∧ (q.forceIteration = true → 1 ≤ r.iterations) ∧
        (∀ f d, initial = some f → r.defect = some d → f ≠ 0 → r.reduction = some (d / f)) ∧
        out.obj.jacobian = if q.keepMatrix then some (matrixAfter (o.jacobian.getD none) out.log) else none) ∧
      (out.error ≠ none → r.converged = false) ∧ out.error ≠ some .undefined ∧
      (out.error = some .notConverged → q.maxIterations ≤ r.iterations ∧ ¬ Criterion q initial r.defect) ∧
      (out.error = some .defect → r.defect = none ∧ (q.strategy = .noLineSearch ∨ q.forceIteration = true ∧ r.iterations = 0)) ∧
      (out.error ≠ some .defect → r.defect ≠ none)) := by
  intro out r initial
  by_cases hd : P.norm q.useMaxNorm (point P hn x) = none
  · have hr : raised (evalDefect P q hn x) = some .defect := raised_some.2 ⟨hd, rfl⟩
    have e1 : out = ⟨⟨⟨false, 0, some 1, o.result.firstDefect, (evalDefect P q hn x).defect, 0⟩, o.jacobian, o.hnSolver, o.hnPrepare, true⟩,
        (evalDefect P q hn x).solution, [], some .defect⟩ := by
      change apply P q n o x = _
      unfold apply
      dsimp only
      rw [hs]
      dsimp only
      rw [hr]
    change getResult out.obj = some out.obj.result ∧ out.obj.result.defect = _ ∧ _
    refine ⟨?_, ?_, ?_, ?_, ?_, ?_, fun h => absurd hd h⟩
    · rw [e1]; rfl
    · rw [e1]; rfl
    · rw [e1]; exact point_point P hi hn x
    · change out.obj.result.linearIterations = _; rw [e1]; rfl
    · change out.obj.result.iterations ≤ _; rw [e1]; exact Nat.zero_le _
    · intro _
      change _ ∧ _ ∧ _ ∧ out.obj.result.converged = false
      rw [e1]
      exact ⟨rfl, rfl, rfl, rfl⟩
  · obtain ⟨h1, h2, h3, h4, h5, h6⟩ := apply_eq P q hn o x n hs hp hd
    have hinv := start_inv P q hn hi o x hd
    have hx := loop_exit P q hn hi _ _ n _ hinv (by rw [← h4]; exact hend)
    rw [← h4] at hx
    change getResult out.obj = some out.obj.result ∧ out.obj.result.defect = _ ∧ _
    refine ⟨?_, ?_, ?_, ?_, ?_, fun h => absurd h hd, fun _ => ⟨?_, ?_, ?_, hx.errors.2, ?_, ?_, ?_⟩⟩
    · unfold getResult; rw [if_pos h6]
    · rw [h1, h2]; exact hx.def_
    · rw [h2]; exact hx.fixed
    · change out.obj.result.linearIterations = _; rw [h1, h3]; exact hx.lin
    · change out.obj.result.iterations ≤ _; rw [h1, h3]; exact hx.its
    · change out.obj.result.firstDefect = _; rw [h1]; exact hx.first_
    · intro he
      obtain ⟨g1, g2, g3, g4⟩ := hx.success he
      change out.obj.result.converged = true ∧ Criterion q _ out.obj.result.defect ∧ (_ → 1 ≤ out.obj.result.iterations) ∧
        (∀ f d, _ → out.obj.result.defect = some d → _ → out.obj.result.reduction = _) ∧ _
      rw [h5, h1, h3]
      refine ⟨g1, g2, g3, ?_, ?_⟩
      · intro f d hf hd' hf0
        exact hx.red (by rw [show (apply P q n o x).error = none from he]; simp) f d (by rw [hx.first_]; exact hf) hd' hf0
      · rw [← h4, show (apply P q n o x).error = none from he]
        dsimp only
        rw [g4]
    · intro he
      change out.obj.result.converged = false
      rw [h1]; exact hx.failure he
    · intro he
      change q.maxIterations ≤ out.obj.result.iterations ∧ ¬ Criterion q _ out.obj.result.defect
      rw [h1]; exact hx.notConverged he
    · intro he
      change out.obj.result.defect = none ∧ (_ ∨ _ ∧ out.obj.result.iterations = 0)
      rw [h1]; exact hx.defect he
    · intro he
      change out.obj.result.defect ≠ none
      rw [h1]; exact hx.fin he

/-- C210 (threshold below one). `apply` always comes to an end, after at most twice the allowed number of Newton iterations of linear solves, even
though failed line searches are repeated without counting as iterations. Missing: thresholds from one on (`C210_endless_false`). -/
theorem C210_newton_terminates_partial (P : Problem K X) (q : Params K) (hn : Bool) (hi : Idempotent P) (o : Obj K X) (x : X) (n : Nat)
    (hs : o.hnSolver = some hn) (hp : o.hnPrepare = some hn) (ht : q.reassembleThreshold < 1) (ha : 0 < q.absLimit)
    (hn' : 2 * bound q + 1 ≤ n) :
    (apply P q n o x).error ≠ some .outOfFuel ∧ solves (apply P q n o x).log ≤ 2 * bound q ∧
    (apply P q n o x).obj.result.iterations ≤ bound q := by
  by_cases hd : P.norm q.useMaxNorm (point P hn x) = none
  · have hr : raised (evalDefect P q hn x) = some .defect := raised_some.2 ⟨hd, rfl⟩
    unfold apply
    dsimp only
    rw [hs]
    dsimp only
    rw [hr]
    exact ⟨by simp, Nat.zero_le _, Nat.zero_le _⟩
  · obtain ⟨h1, h2, h3, h4, h5, h6⟩ := apply_eq P q hn o x n hs hp hd
    have hinv := start_inv P q hn hi o x hd
    rw [h1, h3, h4]
    apply loop_ends P q hn hi _ _ ht ha n _ hinv
    left
    exact ⟨Nat.zero_le _, Nat.zero_le _, hn'⟩

omit [IsStrictOrderedRing K] in
/-- C211. The line search of the deprecated solver, for every damping factor (zero and one included) and any number of trials: the stored defect
belongs to the stored solution; success is a full step (without line search or below the absolute limit), the first trial of sufficient
decrease, or (if allowed) a best trial, provided it improves the defect; trials whose defect is not a number are skipped; failure leaves the old
solution. -/
theorem C211_line_search (P : Problem K X) (q : Params K) (hn : Bool) (hi : Idempotent P) (x z : X) (hx : point P hn x = x)
    (hd : P.norm q.useMaxNorm x ≠ none) :
    let out := lineSearch P q hn (P.norm q.useMaxNorm x) ⟨x, P.norm q.useMaxNorm x⟩ z
    LineSearchOutcome P q hn x z out.1.solution out.1.defect out.2 :=
  lineSearch_spec P q hn hi x z hx hd

/-- C211, all iterations. With a line search, a positive damping factor and absolute limit and without forced iterations, the defect after `apply`
(with or without an exception, even if it has not come to an end yet) is the first defect if no iteration was completed, and smaller
otherwise. -/
theorem C211_defect_decreases (P : Problem K X) (q : Params K) (hn : Bool) (hi : Idempotent P) (o : Obj K X) (x : X) (n : Nat) (f : K)
    (hs : o.hnSolver = some hn) (hp : o.hnPrepare = some hn) (ha : 0 < q.absLimit) (hdamp : 0 < q.dampingFactor)
    (hst : q.strategy ≠ .noLineSearch) (hf : q.forceIteration = false) (hfirst : P.norm q.useMaxNorm (point P hn x) = some f) :
    let r := (apply P q n o x).obj.result
    (r.iterations = 0 ∧ r.defect = some f) ∨ (1 ≤ r.iterations ∧ Lt r.defect (some f)) := by
  intro r
  have hd : P.norm q.useMaxNorm (point P hn x) ≠ none := by rw [hfirst]; simp
  obtain ⟨h1, _⟩ := apply_eq P q hn o x n hs hp hd
  have hinv := start_inv P q hn hi o x hd
  rw [hfirst] at hinv
  have := loop_decrease P q hn hi _ f ha hdamp hst hf n _ hinv (Or.inl ⟨rfl, hfirst⟩)
  change ((apply P q n o x).obj.result.iterations = 0 ∧ (apply P q n o x).obj.result.defect = some f) ∨
    (1 ≤ (apply P q n o x).obj.result.iterations ∧ Lt (apply P q n o x).obj.result.defect (some f))
  rw [h1]
  exact this.2

omit [IsStrictOrderedRing K] in
/-- C212. Every linear system is solved with the matrix assembled last (or that kept from before); the backend is told to reuse its set-up exactly
if the matrix was not assembled since the last solve, and otherwise it is the Jacobian at the current solution. A failed line search is reported only
if the matrix was the Jacobian at the current solution. -/
theorem C212_matrix_use (P : Problem K X) (q : Params K) (hn : Bool) (hi : Idempotent P) (o : Obj K X) (x : X) (n : Nat)
    (hs : o.hnSolver = some hn) (hp : o.hnPrepare = some hn) (hend : (apply P q n o x).error ≠ some .outOfFuel) :
    MatrixUse (o.jacobian.getD none) (apply P q n o x).log ∧
    ((apply P q n o x).error = some .lineSearch → ∃ l red k, (apply P q n o x).log =
      l ++ [Ev.assemble (apply P q n o x).solution, Ev.linearSolve (some (apply P q n o x).solution) (apply P q n o x).solution red false k]) := by
  by_cases hd : P.norm q.useMaxNorm (point P hn x) = none
  · have hr : raised (evalDefect P q hn x) = some .defect := raised_some.2 ⟨hd, rfl⟩
    unfold apply
    dsimp only
    rw [hs]
    dsimp only
    rw [hr]
    refine ⟨?_, by simp⟩
    intro l₁ m y red reuse k l₂ he
    have := congrArg List.length he
    simp at this
  · obtain ⟨h1, h2, h3, h4, h5, h6⟩ := apply_eq P q hn o x n hs hp hd
    have hinv := start_inv P q hn hi o x hd
    have hx := loop_exit P q hn hi _ _ n _ hinv (by rw [← h4]; exact hend)
    rw [h2, h3, h4]
    exact ⟨hx.use, hx.lineSearch⟩

/-- C212, first assembly. With a threshold below one and a positive first defect, the first call is the assembly of the Jacobian at the initial
guess, so a matrix kept from before is never used. -/
theorem C212_first_assembly (P : Problem K X) (q : Params K) (hn : Bool) (hi : Idempotent P) (o : Obj K X) (x : X) (n : Nat) (f : K)
    (hs : o.hnSolver = some hn) (hp : o.hnPrepare = some hn) (hfirst : P.norm q.useMaxNorm (point P hn x) = some f) (hf : 0 < f)
    (ht : q.reassembleThreshold < 1) :
    (apply P q n o x).log = [] ∨ [Ev.assemble (point P hn x)] <+: (apply P q n o x).log := by
  have hd : P.norm q.useMaxNorm (point P hn x) ≠ none := by rw [hfirst]; simp
  obtain ⟨h1, h2, h3, _⟩ := apply_eq P q hn o x n hs hp hd
  rw [h3]
  have hinv := start_inv P q hn hi o x hd
  have hr : Newton.ratioGt (start P q hn o x).result.defect (start P q hn o x).prevDefect q.reassembleThreshold = true := by
    change Newton.ratioGt (P.norm q.useMaxNorm (point P hn x)) (P.norm q.useMaxNorm (point P hn x)) _ = true
    rw [hfirst]
    unfold Newton.ratioGt
    dsimp only
    rw [if_neg hf.ne', div_self hf.ne']
    exact decide_eq_true ht
  have key := iter_first P q hn _ hinv.fixed rfl hr rfl
  rcases n with _ | n
  · exact Or.inl rfl
  · rcases hit : iter P q hn (some hn) (start P q hn o x) with o' | s'
    · rw [loop_inl hit]
      exact key.1 o' hit
    · rw [loop_inr hit]
      exact Or.inr ((key.2 s' hit).trans (loop_log P q hn (some hn) n s'))

/-- C212, default threshold. With the threshold zero and a positive absolute limit, every linear system is solved with the Jacobian at its own residual's
solution, unless an iteration is forced from a solution with defect zero, see `C212_false`. -/
theorem C212_current_jacobian_partial (P : Problem K X) (q : Params K) (hn : Bool) (hi : Idempotent P) (o : Obj K X) (x : X) (n : Nat)
    (hs : o.hnSolver = some hn) (hp : o.hnPrepare = some hn) (ht : q.reassembleThreshold = 0) (ha : 0 < q.absLimit)
    (hf : q.forceIteration = true → ∀ f, P.norm q.useMaxNorm (point P hn x) = some f → 0 < f) (m : Option X) (y : X) (red : Option K) (reuse : Bool) (k : Nat)
    (hmem : Ev.linearSolve m y red reuse k ∈ (apply P q n o x).log) : m = some y ∧ reuse = false := by
  by_cases hd : P.norm q.useMaxNorm (point P hn x) = none
  · have hr : raised (evalDefect P q hn x) = some .defect := raised_some.2 ⟨hd, rfl⟩
    unfold apply at hmem
    dsimp only at hmem
    rw [hs] at hmem
    dsimp only at hmem
    rw [hr] at hmem
    simp at hmem
  · obtain ⟨h1, h2, h3, _⟩ := apply_eq P q hn o x n hs hp hd
    rw [h3] at hmem
    exact loop_current P q hn hi ht ha _ _ n _ (start_inv P q hn hi o x hd) (Or.inl rfl)
      (by intro _ _ _ _ _ h; simp [start] at h) (fun h1 _ d h2 => hf h1 d h2) m y red reuse k hmem

/-- A problem with residual `x`, solved by a correction of three quarters of it. Used for the examples. -/
def oldNewtonExample : Problem ℚ ℚ :=
  ⟨id, fun _ x => some |x|, fun _ => true, fun _ x _ _ => (true, 3 / 4 * x, 3)⟩

/-- Parameters for the examples: absolute limit 1/100, reduction 1/10. -/
def oldNewtonParams : Params ℚ := { Params.default with reduction := 1 / 10, absLimit := 1 / 100 }

/-- The hypotheses of C209 to C212 hold in a run with two iterations, in which the matrix is assembled once if the threshold is 1/2. -/
example : Idempotent oldNewtonExample ∧ (construct false : Obj ℚ ℚ).hnSolver = some false ∧ (construct false : Obj ℚ ℚ).hnPrepare = some false ∧
    (apply oldNewtonExample oldNewtonParams 81 (construct false) 1).error = none ∧
    (apply oldNewtonExample oldNewtonParams 81 (construct false) 1).solution = 1 / 16 ∧
    (apply oldNewtonExample oldNewtonParams 81 (construct false) 1).obj.result = ⟨true, 2, some (1 / 16), some 1, some (1 / 16), 6⟩ ∧
    (apply oldNewtonExample { oldNewtonParams with reassembleThreshold := 1 / 2 } 81 (construct false) 1).log =
      [Ev.assemble 1, Ev.linearSolve (some 1) 1 (some (1 / 100)) false 3, Ev.linearSolve (some 1) (1 / 4) (some (1 / 25)) true 3] :=
  ⟨fun _ => rfl, rfl, rfl, by decide +kernel, by decide +kernel, by decide +kernel, by decide +kernel⟩

/-- C212 is false in general: in an iteration forced from a solution with defect zero, no matrix is assembled, and the linear solver is given a matrix that was
never assembled, and told to reuse its set-up for it. -/
theorem C212_false : oldNewtonParams.reassembleThreshold = 0 ∧
    (apply oldNewtonExample { oldNewtonParams with forceIteration := true } 81 (construct false) 0).log =
      [Ev.linearSolve none 0 (some (1 / 1000)) true 3] :=
  ⟨rfl, by decide +kernel⟩

/-- A line search with failing trials: the first one has a residual that is not a number, the second is not sufficient, the third is. -/
example : lineSearch (⟨id, fun _ x => if x = 0 then none else some (if x = 1 / 2 then 2 else |x|), fun _ => true, fun _ x _ _ => (true, x, 1)⟩ : Problem ℚ ℚ)
    oldNewtonParams false (some 1) ⟨1, some 1⟩ 1 = (⟨3 / 4, some (3 / 4)⟩, none) := by decide +kernel

/-- A problem whose correction points the wrong way: the residual grows in its direction. -/
def oldNewtonUphill : Problem ℚ ℚ :=
  ⟨id, fun _ x => some x, fun _ => true, fun _ _ _ _ => (true, -1, 1)⟩

/-- Parameters for the next theorem: as before, with threshold one, a single trial in a line search, and any number of iterations. -/
def oldNewtonEndless (maxIterations : Nat) : Params ℚ :=
  { oldNewtonParams with reassembleThreshold := 1, maxIterations := maxIterations, lineSearchMaxIterations := 1 }

/-- C210 is false in general: with the threshold one, a failed line search with a matrix that is not current is repeated with the same matrix for
ever, whatever the maximum number of iterations. -/
theorem C210_endless_false (maxIterations : Nat) (hm : 0 < maxIterations) (kept : Option ℚ) :
    ∀ n, (apply oldNewtonUphill (oldNewtonEndless maxIterations) n
      { (construct false : Obj ℚ ℚ) with jacobian := some kept } 1).error = some .outOfFuel := by
  have key : ∀ (n : Nat) (s : State ℚ ℚ), s.solution = 1 → s.result.defect = some 1 → s.result.firstDefect = some 1 →
      s.result.iterations = 0 → s.prevDefect = some 1 →
      (loop oldNewtonUphill (oldNewtonEndless maxIterations) false (some false) n s).2 =
        some .outOfFuel := by
    intro n
    induction n with
    | zero => intro s _ _ _ _ _; rfl
    | succ n ih =>
      intro s h1 h2 h3 h4 h5
      obtain ⟨sol, ⟨cv, it, rd, fd, df, li⟩, prev, jac, rea, log⟩ := s
      dsimp only at h1 h2 h3 h4 h5
      subst h1 h2 h3 h4 h5
      have ht : terminate (oldNewtonEndless maxIterations)
          ⟨cv, 0, rd, some 1, some 1, li⟩ = (⟨false, 0, rd, some 1, some 1, li⟩, .ok false) := by
        unfold terminate
        have e1 : ((oldNewtonEndless maxIterations).forceIteration &&
          (0 : Nat) == 0) = false := rfl
        have e2 : (Newton.ltF (some (1 : ℚ)) (some oldNewtonParams.absLimit) ||
          Newton.ltF (some (1 : ℚ)) ((some (1 : ℚ)).map (· * oldNewtonParams.reduction))) = false := by decide +kernel
        dsimp only
        rw [e1]
        simp only [Bool.false_eq_true, if_false]
        change (if 0 ≥ maxIterations ∧ (Newton.ltF (some (1 : ℚ)) (some oldNewtonParams.absLimit) ||
          Newton.ltF (some (1 : ℚ)) ((some (1 : ℚ)).map (· * oldNewtonParams.reduction))) = false then _ else _) = _
        rw [if_neg (by omega)]
        change (_, Except.ok (Newton.ltF (some (1 : ℚ)) (some oldNewtonParams.absLimit) ||
          Newton.ltF (some (1 : ℚ)) ((some (1 : ℚ)).map (· * oldNewtonParams.reduction)))) = _
        rw [e2]
        exact congrArg (fun b => ((⟨b, 0, rd, some 1, some 1, li⟩ : Result ℚ), (Except.ok false : Except Error Bool))) e2
      have hl : lineSearch oldNewtonUphill (oldNewtonEndless maxIterations) false
          (some 1) ⟨1, some 1⟩ (-1) = (⟨1, some 1⟩, some .lineSearch) := by
        unfold lineSearch
        rw [if_neg (by
          change ¬ (oldNewtonParams.strategy = .noLineSearch ∨ Newton.ltF (some (1 : ℚ)) (some oldNewtonParams.absLimit) = true)
          decide +kernel)]
        change trials oldNewtonUphill (oldNewtonEndless maxIterations) false 1 (-1) (some 1) 0 1 0 (some 1) = _
        rw [trials_zero, if_neg (by
          change ¬ (Newton.leF (some ((1 : ℚ) - (1 : ℚ) • (-1))) (some ((1 - 1 / 4) * 1)) = true)
          decide +kernel)]
        rfl
      have hr : Newton.ratioGt (some (1 : ℚ)) (some 1) (oldNewtonEndless maxIterations).reassembleThreshold = false := by
        change Newton.ratioGt (some (1 : ℚ)) (some 1) 1 = false
        decide +kernel
      have hit : ∃ s', iter oldNewtonUphill (oldNewtonEndless maxIterations) false (some false)
          ⟨1, ⟨cv, 0, rd, some 1, some 1, li⟩, some 1, jac, rea, log⟩ = .inr s' ∧ s'.solution = 1 ∧ s'.result.defect = some 1 ∧
          s'.result.firstDefect = some 1 ∧ s'.result.iterations = 0 ∧ s'.prevDefect = some 1 := by
        unfold iter
        dsimp only
        rw [ht]
        dsimp only
        unfold reassemble
        dsimp only
        rw [hr]
        simp only [Bool.false_eq_true, if_false]
        unfold finish
        dsimp only [oldNewtonUphill]
        have hl' := hl
        unfold oldNewtonUphill at hl'
        rw [hl']
        exact ⟨_, rfl, rfl, rfl, rfl, rfl, rfl⟩
      obtain ⟨s', hs', g1, g2, g3, g4, g5⟩ := hit
      rw [loop_inr hs']
      exact ih s' g1 g2 g3 g4 g5
  intro n
  obtain ⟨_, _, _, h4, _⟩ := apply_eq oldNewtonUphill (oldNewtonEndless maxIterations) false
    { (construct false : Obj ℚ ℚ) with jacobian := some kept } 1 n rfl rfl (by simp [oldNewtonUphill, point])
  rw [h4]
  exact key n _ rfl rfl rfl rfl rfl

/-- With a threshold below one, the same run ends with the exception of the line search, after the matrix was assembled. -/
example : (apply oldNewtonUphill { oldNewtonParams with reassembleThreshold := 9 / 10 } 81 { (construct false : Obj ℚ ℚ) with jacobian := some (some 5) } 1).error =
    some .lineSearch := by decide +kernel

omit [IsStrictOrderedRing K] in
/-- C209 is false for objects made by the constructor that is given a vector: the flags for hanging nodes are read without ever being set. -/
theorem C209_uninitialised_false (P : Problem K X) (q : Params K) (x : X) (n : Nat) :
    (apply P q n (construct true) x).error = some .undefined := rfl

/-- C209 is false if the modification of hanging nodes is enabled in one of the two base classes only: then the solution is modified after its defect
was computed, and if the linear solver fails, the reported defect is not that of the solution. -/
theorem C209_flags_differ_false : ∃ (P : Problem ℚ ℚ) (x : ℚ), Idempotent P ∧
    let out := apply P oldNewtonParams 81 (setHnPrepare true (construct false)) x
    out.error = some .linearSolver ∧ out.obj.result.defect = some 1 ∧ P.norm false out.solution = some 7 :=
  ⟨⟨fun _ => 7, fun _ x => some |x|, fun _ => true, fun _ _ _ _ => (false, 0, 1)⟩, 1, fun _ => rfl, by decide +kernel⟩

/-- C209 is false for the first defect if the initial residual is not a number: the one of the previous call is reported. -/
theorem C209_stale_first_defect_false : ∃ (P : Problem ℚ ℚ) (o : Obj ℚ ℚ),
    o = (apply P oldNewtonParams 81 (construct false) 1).obj ∧ (apply P oldNewtonParams 81 (construct false) 1).error = none ∧
    let out := apply P oldNewtonParams 81 o 100
    out.error = some .defect ∧ out.obj.result.defect = none ∧ out.obj.result.firstDefect = some 1 :=
  ⟨⟨id, fun _ x => if x = 100 then none else some |x|, fun _ => true, fun _ x _ _ => (true, 3 / 4 * x, 3)⟩, _, rfl,
    by decide +kernel, by decide +kernel⟩

omit [IsStrictOrderedRing K] in
/-- C213. If `setParameters` returns, each parameter is the value of its key if the tree has it, and otherwise unchanged. -/
theorem C213_set_parameters (tree : String → Option (Val K)) (q : Params K) (h : (setParameters tree q).2 = true) :
    ParametersSet tree q (setParameters tree q).1 := setParameters_spec tree q h

omit [IsStrictOrderedRing K] in
/-- C213, exceptions. If `setParameters` throws, the tree has one of the keys with a value of the wrong kind, or an unknown name of a line search. -/
theorem C213_exception (tree : String → Option (Val K)) (q : Params K) (h : (setParameters tree q).2 = false) :
    ∃ k f v, (k, f) ∈ (steps : List (String × (Val K → Params K → Option (Params K)))) ∧ tree k = some v ∧ ∀ q', f v q' = none :=
  setParameters_error tree q h

/-- A tree with three parameters. -/
def oldNewtonTree : String → Option (Val ℚ) := fun k =>
  if k = "Reduction" then some (.num (1 / 10000))
  else if k = "LineSearchStrategy" then some (.str "hackbuschReuskenAcceptBest")
  else if k = "MaxIterations" then some (.nat 7)
  else none

example : (setParameters oldNewtonTree oldNewtonParams) =
    ({ oldNewtonParams with reduction := 1 / 10000, maxIterations := 7, strategy := .hackbuschReuskenAcceptBest }, true) := by decide +kernel

/-- C213: the documented example sets the damping factor by the key `LineSearchDamping` (newton/newton.hh:822-828), which is never read. -/
theorem C213_documented_example_false : ∃ tree : String → Option (Val ℚ), tree "LineSearchDamping" = some (.num (9 / 10)) ∧
    setParameters tree oldNewtonParams = (oldNewtonParams, true) :=
  ⟨fun k => if k = "LineSearchDamping" then some (.num (9 / 10)) else none, rfl, by decide +kernel⟩

/-- C213: `setParameters` is not all or nothing: if it throws for the name of the line search, the parameters read before are set. -/
theorem C213_atomic_false : ∃ tree : String → Option (Val ℚ),
    setParameters tree oldNewtonParams = ({ oldNewtonParams with reduction := 1 / 10000 }, false) :=
  ⟨fun k => if k = "Reduction" then some (.num (1 / 10000)) else if k = "LineSearchStrategy" then some (.str "hackbusch") else none,
    by decide +kernel⟩

end Verif
