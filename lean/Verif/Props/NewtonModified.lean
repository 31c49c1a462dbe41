import Verif.Proofs.NewtonModified
import Verif.Props.NewtonSolve
import Mathlib.Data.Real.Sqrt
/-
C247: Newton's method with the modifications for hanging nodes.
-/
namespace Verif
open NewtonSolve ConstrainedSolve Constraints Assembly NewtonModified

section
variable {K X : Type} [Field K] [LinearOrder K] [AddCommGroup X] [Module K X]

/-- **C247 (any modification).** If the modification of the solution is linear and does nothing when repeated, the solver with modifications does the same as
the solver without, from the modified initial guess and with modified corrections: same result, same statistics, same calls, same exceptions. -/
theorem C247_modification (L : X →ₗ[K] X) (hL : ∀ y, L (L y) = L y) (P : Newton.Problem K X) (q : Newton.Params K) (kept : Option (Option X)) (x : X) :
    NewtonModified.apply L P q kept x = Newton.apply
      { P with solve := fun z y red => ((P.solve z y red).1, L (P.solve z y red).2.1, (P.solve z y red).2.2) } q kept (L x) :=
  apply_sim L hL P q kept x

end

section
variable {I F : Type} [DecidableEq I] [Field F] [LinearOrder F] [IsStrictOrderedRing F] [Fintype I]

omit [IsStrictOrderedRing F] [Fintype I] in
theorem hanging_sim {t : Trafo I F} (h : Admissible t) (P : Newton.Problem F (I → F)) (q : Newton.Params F) (kept : Option (Option (I → F))) (x : I → F) :
    NewtonModified.apply (interpolate t) P q kept x = Newton.apply (modified (interpolate t) P) q kept (interpolate t x) :=
  apply_sim (interpolation h) (interpolate_idem h) P q kept x

omit [IsStrictOrderedRing F] [Fintype I] in
/-- **C247 (constraints).** Whatever the operator, the linear solver and the parameters, and whether `apply` returns or throws: the solution satisfies the linear
constraints, also if the initial guess does not. -/
theorem C247_conforming (t : Trafo I F) (h : Admissible t) (P : Newton.Problem F (I → F)) (q : Newton.Params F) (kept : Option (Option (I → F)))
    (x : I → F) : Conforming t (NewtonModified.apply (interpolate t) P q kept x).1.solution := by
  rw [hanging_sim h]
  refine apply_keeps_always _ q (Conforming t) (fun z y red hy l => ?_) kept _ (interpolate_spec h x).1
  have e := conforming_comb hy (interpolate_spec h (P.solve z y red).2.1).1 (-l)
  have e2 : (fun k => y k + -l * interpolate t (P.solve z y red).2.1 k) = y - l • ((modified (interpolate t) P).solve z y red).2.1 := by
    funext k
    show y k + -l * interpolate t (P.solve z y red).2.1 k = y k - l * interpolate t (P.solve z y red).2.1 k
    ring
  rw [← e2]
  exact e

/-- **C247 (Dirichlet values).** The solution has the Dirichlet values of the initial guess. -/
theorem C247_dirichlet (t : Trafo I F) (h : Admissible t) (symmetric : Bool) (ci0 : Nat → I) (pattern : List (PatternPart I)) (parts : List (Part I F))
    (hp : PatternFits t pattern parts) (norm : (I → F) → F) (solve : Matrix I F → (I → F) → Option F → Bool × (I → F) × Nat)
    (hs : KeepsTrivialRows solve) (unassembled : (I → F) → Option F → Bool × (I → F) × Nat) (q : Newton.Params F)
    (hforce : q.forceIteration = false) (habs : 0 < q.absoluteLimit) (hthr : q.reassembleThreshold < 1) (kept : Option (Option (I → F))) (x : I → F) :
    ∀ k, t.Dirichlet k →
      (NewtonModified.apply (interpolate t) (problem t symmetric ci0 pattern parts norm solve unassembled) q kept x).1.solution k = x k := by
  rw [hanging_sim h]
  refine apply_keeps (modified (interpolate t) (problem t symmetric ci0 pattern parts norm solve unassembled)) q hforce habs hthr
    (problem_ok h symmetric ci0 pattern parts hp norm solve unassembled) (fun y => ∀ k, t.Dirichlet k → y k = x k) ?_ kept _ _ rfl
    fun k hk => (interpolate_spec h x).2 k (not_linear_of_dirichlet h hk)
  intro z y red hy hok l k hk
  obtain ⟨m, hm, hc, -⟩ := jacobian_rows h symmetric ci0 pattern parts hp z
  have e : (problem t symmetric ci0 pattern parts norm solve unassembled).solve (some z) y red = solve m (residual t parts y) red := by
    show (match (some z).bind (jacobian t symmetric ci0 pattern parts) with
      | some m => solve m (residual t parts y) red
      | none => unassembled (residual t parts y) red) = _
    rw [Option.bind_some, hm]
  have hok' : (solve m (residual t parts y) red).1 = true := by rw [← e]; exact hok
  show y k - l * interpolate t ((problem t symmetric ci0 pattern parts norm solve unassembled).solve (some z) y red).2.1 k = x k
  rw [e, (interpolate_spec h _).2 k (not_linear_of_dirichlet h hk),
    hs m _ red k (hc k ⟨_, hk⟩) (residual_constrained t parts y k ⟨_, hk⟩) hok', mul_zero, sub_zero, hy k hk]

/-- **C247 (error).** A strongly monotone problem with hanging nodes: if `apply` returns, the reported defect is the norm of the residual of the returned solution,
it is below the absolute limit or the wanted fraction of the first defect, and it bounds the distance to the discrete solution with the Dirichlet values of the
initial guess. -/
theorem C247_error (t : Trafo I F) (h : Admissible t) (symmetric : Bool) (ci0 : Nat → I)
    (pattern : List (PatternPart I)) (parts : List (Part I F)) (hp : PatternFits t pattern parts) (alpha : F) (ha : 0 < alpha)
    (hm : StronglyMonotone t parts alpha) (norm : (I → F) → F) (hnorm : TwoNorm t norm)
    (solve : Matrix I F → (I → F) → Option F → Bool × (I → F) × Nat) (hs : KeepsTrivialRows solve)
    (unassembled : (I → F) → Option F → Bool × (I → F) × Nat) (q : Newton.Params F) (hq : Newton.Spec.Damped q)
    (hforce : q.forceIteration = false) (habs : 0 < q.absoluteLimit) (hthr : q.reassembleThreshold < 1) (kept : Option (Option (I → F))) (x : I → F)
    (hret : (NewtonModified.apply (interpolate t) (problem t symmetric ci0 pattern parts norm solve unassembled) q kept x).2 = none) :
    let s := (NewtonModified.apply (interpolate t) (problem t symmetric ci0 pattern parts norm solve unassembled) q kept x).1
    ∃ d, s.result.defect = some d ∧ d = norm (residual t parts s.solution) ∧
      (d < q.absoluteLimit ∨ d < norm (residual t parts (interpolate t x)) * q.reduction) ∧
      ∀ y, Galerkin t parts y → (∀ k, t.Dirichlet k → y k = x k) → alpha * norm (fun k => s.solution k - y k) ≤ d := by
  intro s
  have h1 := C28_newton_partial (modified (interpolate t) (problem t symmetric ci0 pattern parts norm solve unassembled)) q hq kept (interpolate t x)
  rw [← hanging_sim h] at h1
  refine ⟨norm (residual t parts s.solution), h1.2.1, rfl, ?_, fun y hy hd => ?_⟩
  · rcases (h1.2.2.2.1 hret).2.1 with ⟨a, b, ea, eb, hlt⟩ | ⟨a, b, ea, eb, hlt⟩
    · left
      have e1 : norm (residual t parts s.solution) = a := Option.some.inj ea
      rw [e1, Option.some.inj eb]
      exact hlt
    · right
      have e1 : norm (residual t parts s.solution) = a := Option.some.inj ea
      have e2 : norm (residual t parts (interpolate t x)) * q.reduction = b := Option.some.inj eb
      rw [e1, e2]
      exact hlt
  · refine error_bound h parts alpha ha hm norm hnorm s.solution y (C247_conforming t h _ q kept x) hy fun k hk => ?_
    rw [hd k hk]
    exact C247_dirichlet t h symmetric ci0 pattern parts hp norm solve hs unassembled q hforce habs hthr kept x k hk

/-- **C247 (linear problems).** For a linear problem that has one solution `apply` returns without exception after at most one iteration, from any initial guess,
with any kept matrix and any line search; the result satisfies the linear constraints and has the Dirichlet values of the guess. After an iteration it is the
discrete solution, the same that `StationaryLinearProblemSolver` computes. -/
theorem C247_linear (t : Trafo I F) (h : Admissible t) (symmetric : Bool) (ci0 : Nat → I)
    (pattern : List (PatternPart I)) (parts : List (Part I F)) (hp : PatternFits t pattern parts) (A : Part I F → Nat → Nat → F)
    (b : Part I F → Nat → F) (ha : ∀ p ∈ parts, Affine p (A p) (b p)) (hreg : Regular t parts) (norm : (I → F) → F) (hnorm : Definite norm)
    (solve : Matrix I F → (I → F) → Option F → Bool × (I → F) × Nat) (hs : Solves solve)
    (unassembled : (I → F) → Option F → Bool × (I → F) × Nat) (q : Newton.Params F)
    (hforce : q.forceIteration = false) (habs : 0 < q.absoluteLimit) (hthr : q.reassembleThreshold < 1)
    (hn : ∀ n e b, q.lineSearch = .hackbuschReusken n e b → 0 < n) (hmax : 1 ≤ q.maxIterations) (kept : Option (Option (I → F))) (x : I → F) :
    let out := NewtonModified.apply (interpolate t) (problem t symmetric ci0 pattern parts norm solve unassembled) q kept x
    out.2 = none ∧ out.1.result.iterations ≤ 1 ∧ Conforming t out.1.solution ∧ (∀ k, t.Dirichlet k → out.1.solution k = x k) ∧
      (out.1.result.iterations = 1 → Galerkin t parts out.1.solution ∧
        ∀ direct, Exact direct → applyLinear t symmetric ci0 pattern parts direct true x = some out.1.solution) := by
  intro out
  have hsim : out = Newton.apply (modified (interpolate t) (problem t symmetric ci0 pattern parts norm solve unassembled)) q kept (interpolate t x) :=
    hanging_sim h _ q kept x
  have key : ∀ z y red,
      ((modified (interpolate t) (problem t symmetric ci0 pattern parts norm solve unassembled)).solve (some z) y red).1 = true ∧
      (∀ k, t.Dirichlet k → ((modified (interpolate t) (problem t symmetric ci0 pattern parts norm solve unassembled)).solve (some z) y red).2.1 k = 0) ∧
      ∀ r, residual t parts (fun k => y k -
        ((modified (interpolate t) (problem t symmetric ci0 pattern parts norm solve unassembled)).solve (some z) y red).2.1 k) r = 0 := by
    intro z y red
    obtain ⟨m, hm, hsol⟩ := solvable h symmetric ci0 pattern parts hp A b ha hreg z (residual t parts y)
    have e : (problem t symmetric ci0 pattern parts norm solve unassembled).solve (some z) y red = solve m (residual t parts y) red := by
      show (match (some z).bind (jacobian t symmetric ci0 pattern parts) with
        | some m => solve m (residual t parts y) red
        | none => unassembled (residual t parts y) red) = _
      rw [Option.bind_some, hm]
    have e2 : (modified (interpolate t) (problem t symmetric ci0 pattern parts norm solve unassembled)).solve (some z) y red =
        ((solve m (residual t parts y) red).1, interpolate t (solve m (residual t parts y) red).2.1, (solve m (residual t parts y) red).2.2) := by
      unfold modified
      dsimp only
      rw [e]
    rw [e2]
    have hz : jacobian t symmetric ci0 pattern parts y = some m := by
      rw [← hm]
      unfold jacobian
      congr 1
      refine List.map_congr_left fun p hp => ?_
      unfold Part.matrix
      rw [(ha p hp _).1, (ha p hp _).1]
    obtain ⟨m', hm', hzc, hzf⟩ := correction h symmetric ci0 pattern parts hp A b ha hreg (fun m r => (solve m r red).2.1)
      (fun m r hr => (hs m r red hr).2) y
    rw [hz] at hm'
    cases hm'
    refine ⟨(hs m _ red hsol).1, fun k hk => ?_, ?_⟩
    · show interpolate t (solve m (residual t parts y) red).2.1 k = 0
      rw [(interpolate_spec h _).2 k (not_linear_of_dirichlet h hk)]
      exact hzc k ⟨_, hk⟩
    · show ∀ r, residual t parts (fun k => y k - interpolate t (solve m (residual t parts y) red).2.1 k) r = 0
      rw [interpolate_correction h _ hzc]
      exact corrected_residual h parts A b ha y _ hzf
  have h1 := C225_converges (modified (interpolate t) (problem t symmetric ci0 pattern parts norm solve unassembled)) q hforce habs hthr hn
    (problem_ok h symmetric ci0 pattern parts hp norm solve unassembled) 0 (le_refl 0) (by norm_num) (by
      intro z y red d hd
      obtain ⟨k1, -, k3⟩ := key z y red
      refine ⟨k1, 0, ?_, by rw [zero_mul]⟩
      exact congrArg some ((hnorm _).2.mpr k3)) kept (interpolate t x) _ rfl 1 hmax (Or.inl (by rw [pow_one, zero_mul]; exact habs))
  rw [← hsim] at h1
  have h2 : ∀ k, t.Dirichlet k → out.1.solution k = x k := by
    rw [hsim]
    refine apply_keeps (modified (interpolate t) (problem t symmetric ci0 pattern parts norm solve unassembled)) q hforce habs hthr
      (problem_ok h symmetric ci0 pattern parts hp norm solve unassembled) (fun y => ∀ k, t.Dirichlet k → y k = x k) ?_ kept _ _ rfl
      fun k hk => (interpolate_spec h x).2 k (not_linear_of_dirichlet h hk)
    intro z y red hy _ l k hk
    show y k - l * ((modified (interpolate t) (problem t symmetric ci0 pattern parts norm solve unassembled)).solve (some z) y red).2.1 k = x k
    rw [(key z y red).2.1 k hk, mul_zero, sub_zero, hy k hk]
  have h3 : Conforming t out.1.solution := C247_conforming t h _ q kept x
  refine ⟨h1.1, h1.2.1, h3, h2, fun hi => ?_⟩
  have hg : Galerkin t parts out.1.solution := by
    obtain ⟨d, hd, hle⟩ := h1.2.2
    rw [hi, pow_one, zero_mul] at hle
    have e : norm (residual t parts out.1.solution) = 0 :=
      le_antisymm (by rw [show norm (residual t parts out.1.solution) = d from Option.some.inj hd]; exact hle) (hnorm _).1
    exact (galerkin_iff h parts _).mpr ⟨h3, (hnorm _).2.mp e⟩
  refine ⟨hg, fun direct hdirect => ?_⟩
  obtain ⟨x', e1, -, -, e4⟩ := C232_linear_solver t h symmetric ci0 pattern parts hp A b ha hreg direct hdirect x
  rw [e1, e4 _ hg h2]

end

section FEM
open LocalOp LocalOp.Spec LocalOp.FEM FEMMesh
variable {K P Q I : Type} [Field K] [LinearOrder K] [IsStrictOrderedRing K] [Inhabited I] [DecidableEq I] [Fintype I] {d N : Nat} {n : Fin N → Nat}

/-- **C247 (finite elements).** Newton's method with the conforming finite element operator of an elliptic problem, hanging nodes included. -/
theorem C247_fem (add : Int) (mesh : Mesh K P Q I d n) (t : Trafo I K) (h : Admissible t)
    (hin : ConstrainedInCells t mesh) (he : Elliptic add t mesh) (hb : Incompressible add t mesh) (symmetric : Bool) (ci0 : Nat → I)
    (norm : (I → K) → K) (hnorm : NewtonSolve.Definite norm) (solve : Assembly.Matrix I K → (I → K) → Option K → Bool × (I → K) × Nat)
    (hs : Solves solve) (unassembled : (I → K) → Option K → Bool × (I → K) × Nat) (q : Newton.Params K)
    (hforce : q.forceIteration = false) (habs : 0 < q.absoluteLimit) (hthr : q.reassembleThreshold < 1)
    (hn : ∀ n e b, q.lineSearch = .hackbuschReusken n e b → 0 < n) (hmax : 1 ≤ q.maxIterations) (kept : Option (Option (I → K))) (x : I → K) :
    let out := NewtonModified.apply (interpolate t) (problem t symmetric ci0 (meshPattern mesh) (meshParts add mesh) norm solve unassembled) q kept x
    out.2 = none ∧ out.1.result.iterations ≤ 1 ∧ Conforming t out.1.solution ∧ (∀ k, t.Dirichlet k → out.1.solution k = x k) ∧
      (out.1.result.iterations = 1 → Solution add t mesh out.1.solution) := by
  intro out
  obtain ⟨h1, h2, h3, h4, h5⟩ := C247_linear t h symmetric ci0 (meshPattern mesh) (meshParts add mesh) (pattern_fits add t mesh hin) _ _
    (parts_affine add mesh he.conditions) (regular add t mesh he hb) norm hnorm solve hs unassembled q hforce habs hthr hn hmax kept x
  exact ⟨h1, h2, h3, h4, fun hi => (galerkin_iff add t mesh _).mp (h5 hi).1⟩

end FEM

/-- The example of C232: four degrees of freedom on a line, with a hanging node. -/
example (kept : Option (Option (Fin 4 → ℚ))) (x : Fin 4 → ℚ) :
    let out := NewtonModified.apply (interpolate lineTrafo) (problem lineTrafo true (fun _ => 0) linePattern lineParts (fun r => ∑ k, |r k|) chosenReport
      fun _ _ => (false, 0, 0)) cubicParams kept x
    out.2 = none ∧ Conforming lineTrafo out.1.solution :=
  have h := C247_linear lineTrafo lineTrafo_admissible true (fun _ => 0) linePattern lineParts linePattern_fits _ _ line_affine line_regular
    (fun r => ∑ k, |r k|) sum_abs_definite chosenReport chosenReport_solves (fun _ _ => (false, 0, 0)) cubicParams rfl (by decide +kernel)
    (by decide +kernel) (by intro n e b h; cases h; decide) (by decide) kept x
  ⟨h.1, h.2.2.1⟩

/-- One degree of freedom 1, a Dirichlet node 0 and a hanging node 2 between them, with the reaction `u^e` at node 1 and diffusion. -/
def powerHanging (F : Type) [Field F] (e : Nat) : Part (Fin 3) F where
  nv := 3
  nu := 3
  v := fun i => Fin.ofNat 3 i
  u := fun i => Fin.ofNat 3 i
  residual := fun x i => if i = 0 then 2 * (x 0 - x 2) else if i = 1 then 2 * (x 1 - x 2) + x 1 ^ e else 2 * (2 * x 2 - x 0 - x 1)
  jacobian := fun x i j => if i = 0 then (if j = 0 then 2 else if j = 1 then 0 else -2)
    else if i = 1 then (if j = 0 then 0 else if j = 1 then 2 + e * x 1 ^ (e - 1) else -2) else (if j = 2 then 4 else -2)
/-- The constraints. -/
def hangingTrafo (F : Type) [Field F] : Trafo (Fin 3) F := ⟨[(2, [(0, 1/2), (1, 1/2)]), (0, [])], true⟩
/-- All couplings. -/
def hangingPattern : List (PatternPart (Fin 3)) :=
  [⟨3, 3, fun i => Fin.ofNat 3 i, fun i => Fin.ofNat 3 i, (List.range 3).flatMap fun i => (List.range 3).map fun j => (i, j)⟩]
/-- A solver for corrections that vanish at the constrained nodes. -/
def hangingSolve (m : Matrix (Fin 3) ℚ) (r : Fin 3 → ℚ) (_ : Option ℚ) : Bool × (Fin 3 → ℚ) × Nat := (true, ![r 0, r 1 / m.val 1 1, r 2], 1)

/-- The value at the hanging node is wrong in the initial guess; the full step is rejected, the half step finds the solution (2, 1, 3/2). -/
example : let out := NewtonModified.apply (interpolate (hangingTrafo ℚ)) (problem (hangingTrafo ℚ) true (fun _ => 0) hangingPattern [powerHanging ℚ 3]
    (fun r => |r 1|) hangingSolve fun _ _ => (false, 0, 0)) cubicParams none ![2, 0, 77]
    out.2 = none ∧ out.1.solution = ![2, 1, 3 / 2] ∧ out.1.result.iterations = 1 := by
  decide +kernel

section
variable {F : Type} [Field F] [LinearOrder F] [IsStrictOrderedRing F]

theorem powerHanging_form (e : Nat) (x w : Fin 3 → F) : form [powerHanging F e] x w =
    w 0 * (2 * (x 0 - x 2)) + w 1 * (2 * (x 1 - x 2) + x 1 ^ e) + w 2 * (2 * (2 * x 2 - x 0 - x 1)) := by
  simp [form, powerHanging, List.range_succ]
  show w 0 * (2 * (x 0 - x 2)) + (w 1 * (2 * (x 1 - x 2) + x 1 ^ e) + w 2 * (2 * (2 * x 2 - x 0 - x 1))) = _
  ring

theorem hanging_dirichlet (x y : Fin 3 → F) (h : ∀ k, (hangingTrafo F).Dirichlet k → x k = y k) : x 0 = y 0 :=
  h 0 (by unfold Trafo.Dirichlet hangingTrafo; simp)

theorem hanging_value (x : Fin 3 → F) (h : Conforming (hangingTrafo F) x) : x 2 = 1 / 2 * x 0 + 1 / 2 * x 1 := by
  have := h 2 [(0, 1/2), (1, 1/2)] (by simp [hangingTrafo]) (by simp)
  simpa using this

/-- The form is strongly monotone with `alpha = 1/2`: the sum of squares contains the value at the hanging node. -/
theorem powerHanging_monotone (e : Nat) (he : e = 1 ∨ e = 3) : StronglyMonotone (hangingTrafo F) [powerHanging F e] (1 / 2) := by
  intro x y hx hy h
  rw [powerHanging_form, powerHanging_form, Fin.sum_univ_three, hanging_value x hx, hanging_value y hy, hanging_dirichlet x y h]
  rcases he with rfl | rfl
  · nlinarith [sq_nonneg (x 1 - y 1)]
  · nlinarith [mul_nonneg (sq_nonneg (x 1 - y 1)) (show 0 ≤ x 1 ^ 2 + x 1 * y 1 + y 1 ^ 2 by
      nlinarith [sq_nonneg (x 1 + y 1), sq_nonneg (x 1), sq_nonneg (y 1)]), sq_nonneg (x 1 - y 1)]

omit [LinearOrder F] [IsStrictOrderedRing F] in
theorem hangingTrafo_admissible : Admissible (hangingTrafo F) where
  keys := by simp [hangingTrafo]
  flag := fun _ _ _ _ => rfl
  chains := by
    intro k row hm e he row' hm'
    simp only [hangingTrafo, List.mem_cons, Prod.mk.injEq, List.not_mem_nil, or_false] at hm hm'
    rcases hm with ⟨rfl, rfl⟩ | ⟨rfl, rfl⟩
    · simp only [List.mem_cons, List.not_mem_nil, or_false] at he
      rcases he with rfl | rfl <;> rcases hm' with ⟨h, _⟩ | ⟨_, h⟩
      · exact absurd h (by simp)
      · exact h
      · exact absurd h (by simp)
      · exact h
    · simp at he

omit [LinearOrder F] [IsStrictOrderedRing F] in
theorem hangingPattern_fits (parts : List (Part (Fin 3) F)) : PatternFits (hangingTrafo F) hangingPattern parts where
  valid := by
    intro q hq
    simp only [hangingPattern, List.mem_singleton] at hq
    subst hq
    intro l hl
    simp only [List.mem_flatMap, List.mem_map, List.mem_range] at hl
    obtain ⟨i, hi, j, hj, rfl⟩ := hl
    exact ⟨hi, hj⟩
  covered := by
    intro x p _ i _ j _ _
    refine ⟨_, List.mem_singleton.mpr rfl, ((p.v i).val, (p.u j).val), ?_, ?_, ?_⟩
    · simp only [List.mem_flatMap, List.mem_map, List.mem_range]
      exact ⟨_, (p.v i).isLt, _, (p.u j).isLt, rfl⟩
    · exact Fin.ofNat_val_eq_self _
    · exact Fin.ofNat_val_eq_self _
  diagonal := by
    intro k _
    refine ⟨_, List.mem_singleton.mpr rfl, (k.val, k.val), ?_, Fin.ofNat_val_eq_self _, Fin.ofNat_val_eq_self _⟩
    simp only [List.mem_flatMap, List.mem_map, List.mem_range]
    exact ⟨_, k.isLt, _, k.isLt, rfl⟩

theorem linearHanging_regular : Regular (hangingTrafo F) [powerHanging F 1] := by
  intro y hy hw
  have h := hw y hy
  have h0 : y 0 = 0 := hy.2 0 (by unfold Trafo.Dirichlet hangingTrafo; simp)
  have h2 := hanging_value y hy.1
  unfold bilinear at h
  rw [powerHanging_form, powerHanging_form, h2, h0] at h
  have h1 : y 1 = 0 := by
    have : y 1 ^ 2 = 0 := by nlinarith [sq_nonneg (y 1)]
    exact pow_eq_zero_iff two_ne_zero |>.mp this
  intro k
  fin_cases k
  · exact h0
  · exact h1
  · show y 2 = 0
    rw [h2, h0, h1]; ring

omit [LinearOrder F] [IsStrictOrderedRing F] in
theorem linearHanging_affine : ∀ p ∈ [powerHanging F 1], Affine p ((powerHanging F 1).jacobian fun _ => 0) fun _ => 0 := by
  intro p hp x
  rw [List.mem_singleton] at hp
  subst hp
  refine ⟨?_, fun i hi => ?_⟩
  · funext i j
    simp [powerHanging]
  · have hi' : i < 3 := hi
    interval_cases i <;> simp [powerHanging, List.range_succ] <;> ring

omit [IsStrictOrderedRing F] in
theorem chosenReport_keeps {I : Type} [DecidableEq I] [Fintype I] :
    KeepsTrivialRows (chosenReport : Matrix I F → (I → F) → Option F → Bool × (I → F) × Nat) := by
  intro m r red k hk hr _
  show chosen m r k = 0
  unfold chosen
  split
  · rename_i h
    have := h.choose_spec k
    simpa [hk, hr] using this
  · rfl

end

/-- All hypotheses of the error bound are met by the linear problem in the real numbers, from any initial guess. -/
example (x : Fin 3 → ℝ) (q : Newton.Params ℝ) (hq : Newton.Spec.Damped q) (hforce : q.forceIteration = false) (habs : 0 < q.absoluteLimit)
    (hthr : q.reassembleThreshold < 1) (hn : ∀ n e b, q.lineSearch = .hackbuschReusken n e b → 0 < n) (hmax : 1 ≤ q.maxIterations) :
    ∃ d, ∀ y, Galerkin (hangingTrafo ℝ) [powerHanging ℝ 1] y → (∀ k, (hangingTrafo ℝ).Dirichlet k → y k = x k) →
      1 / 2 * Real.sqrt (∑ k, ((NewtonModified.apply (interpolate (hangingTrafo ℝ)) (problem (hangingTrafo ℝ) true (fun _ => 0) hangingPattern
        [powerHanging ℝ 1] (fun r => Real.sqrt (∑ k, r k ^ 2)) chosenReport fun _ _ => (false, 0, 0)) q none x).1.solution k - y k) ^ 2) ≤ d := by
  have hsum : ∀ r : Fin 3 → ℝ, 0 ≤ ∑ k, r k ^ 2 := fun r => Finset.sum_nonneg fun k _ => sq_nonneg _
  have hret := (C247_linear (hangingTrafo ℝ) hangingTrafo_admissible true (fun _ => 0) hangingPattern [powerHanging ℝ 1] (hangingPattern_fits _) _ _
    linearHanging_affine linearHanging_regular (fun r => Real.sqrt (∑ k, r k ^ 2)) (fun r => ⟨Real.sqrt_nonneg _, by
      rw [Real.sqrt_eq_zero (hsum r), Finset.sum_eq_zero_iff_of_nonneg fun k _ => sq_nonneg _]; simp⟩) chosenReport chosenReport_solves
    (fun _ _ => (false, 0, 0)) q hforce habs hthr hn hmax none x).1
  obtain ⟨d, -, -, -, h⟩ := C247_error (hangingTrafo ℝ) hangingTrafo_admissible true (fun _ => 0) hangingPattern [powerHanging ℝ 1] (hangingPattern_fits _)
    (1 / 2) (by norm_num) (powerHanging_monotone 1 (Or.inl rfl)) (fun r => Real.sqrt (∑ k, r k ^ 2))
    (fun r _ => ⟨Real.sqrt_nonneg _, Real.sq_sqrt (hsum r)⟩) chosenReport chosenReport_keeps (fun _ _ => (false, 0, 0)) q hq hforce habs hthr none x hret
  exact ⟨d, h⟩

end Verif
