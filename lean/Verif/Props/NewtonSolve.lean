import Verif.Proofs.NewtonSolve
import Verif.Props.NewtonConvergence
import Verif.Props.CCFVSolve
import Verif.Props.DGSolve
import Verif.Props.FEMMesh
/-
C246: Newton's method applied to a grid operator.
-/
namespace Verif
open NewtonSolve ConstrainedSolve Constraints Assembly

section
variable {I F : Type} [DecidableEq I] [Field F] [LinearOrder F] [IsStrictOrderedRing F] [Fintype I]

/-- **C246 (Dirichlet values).** Whatever the local operator, and whether `apply` returns or throws: the solution has the Dirichlet values of the initial guess. -/
theorem C246_dirichlet (t : Trafo I F) (h : Admissible t) (symmetric : Bool) (ci0 : Nat → I) (pattern : List (PatternPart I)) (parts : List (Part I F))
    (hp : PatternFits t pattern parts) (norm : (I → F) → F) (solve : Matrix I F → (I → F) → Option F → Bool × (I → F) × Nat)
    (hs : KeepsTrivialRows solve) (unassembled : (I → F) → Option F → Bool × (I → F) × Nat) (q : Newton.Params F)
    (hforce : q.forceIteration = false) (habs : 0 < q.absoluteLimit) (hthr : q.reassembleThreshold < 1) (kept : Option (Option (I → F))) (x : I → F) :
    ∀ k, t.Dirichlet k → (Newton.apply (problem t symmetric ci0 pattern parts norm solve unassembled) q kept x).1.solution k = x k := by
  refine apply_keeps (problem t symmetric ci0 pattern parts norm solve unassembled) q hforce habs hthr
    (problem_ok h symmetric ci0 pattern parts hp norm solve unassembled) (fun y => ∀ k, t.Dirichlet k → y k = x k) ?_ kept x _ rfl fun _ _ => rfl
  intro z y red hy hok l k hk
  obtain ⟨m, hm, hc, -⟩ := jacobian_rows h symmetric ci0 pattern parts hp z
  have e : (problem t symmetric ci0 pattern parts norm solve unassembled).solve (some z) y red = solve m (residual t parts y) red := by
    show (match (some z).bind (jacobian t symmetric ci0 pattern parts) with
      | some m => solve m (residual t parts y) red
      | none => unassembled (residual t parts y) red) = _
    rw [Option.bind_some, hm]
  rw [e] at hok ⊢
  show y k - l * (solve m (residual t parts y) red).2.1 k = x k
  rw [hs m _ red k (hc k ⟨_, hk⟩) (residual_constrained t parts y k ⟨_, hk⟩) hok, mul_zero, sub_zero, hy k hk]

/-- **C246 (uniqueness).** A strongly monotone problem has at most one solution with given Dirichlet values. -/
theorem C246_unique (t : Trafo I F) (parts : List (Part I F)) (alpha : F)
    (ha : 0 < alpha) (hm : StronglyMonotone t parts alpha) (x y : I → F) (hx : Galerkin t parts x) (hy : Galerkin t parts y)
    (hd : ∀ k, t.Dirichlet k → x k = y k) : x = y := by
  have hw : Homogeneous t fun k => x k - y k := ⟨conforming_sub hx.1 hy.1, fun k hk => by simp only [hd k hk, sub_self]⟩
  have h1 := hm x y hx.1 hy.1 hd
  rw [hx.2 _ hw, hy.2 _ hw, sub_zero] at h1
  have h2 : ∑ k, (x k - y k) ^ 2 ≤ 0 := by
    by_contra h0
    have := mul_pos ha (not_le.mp h0)
    linarith
  have h3 := (Finset.sum_eq_zero_iff_of_nonneg fun k _ => sq_nonneg (x k - y k)).mp (le_antisymm h2 (Finset.sum_nonneg fun k _ => sq_nonneg _))
  funext k
  exact sub_eq_zero.mp (pow_eq_zero_iff (two_ne_zero)|>.mp (h3 k (Finset.mem_univ k)))

/-- **C246 (error).** A nonlinear problem that is strongly monotone, with Dirichlet constraints: if `apply` returns, its solution is close to the discrete solution
with the Dirichlet values of the initial guess. The reported defect bounds the distance, and it is below the absolute limit or below the wanted fraction of the
first defect. The linear solver need not be exact. -/
theorem C246_error (t : Trafo I F) (h : Admissible t) (hdir : ∀ k row, (k, row) ∈ t.rows → row = []) (symmetric : Bool) (ci0 : Nat → I)
    (pattern : List (PatternPart I)) (parts : List (Part I F)) (hp : PatternFits t pattern parts) (alpha : F) (ha : 0 < alpha)
    (hm : StronglyMonotone t parts alpha) (norm : (I → F) → F) (hnorm : TwoNorm t norm)
    (solve : Matrix I F → (I → F) → Option F → Bool × (I → F) × Nat) (hs : KeepsTrivialRows solve)
    (unassembled : (I → F) → Option F → Bool × (I → F) × Nat) (q : Newton.Params F) (hq : Newton.Spec.Damped q)
    (hforce : q.forceIteration = false) (habs : 0 < q.absoluteLimit) (hthr : q.reassembleThreshold < 1) (kept : Option (Option (I → F))) (x : I → F)
    (hret : (Newton.apply (problem t symmetric ci0 pattern parts norm solve unassembled) q kept x).2 = none) :
    let s := (Newton.apply (problem t symmetric ci0 pattern parts norm solve unassembled) q kept x).1
    ∃ d, s.result.defect = some d ∧ (d < q.absoluteLimit ∨ d < norm (residual t parts x) * q.reduction) ∧
      ∀ y, Galerkin t parts y → (∀ k, t.Dirichlet k → y k = x k) → alpha * norm (fun k => s.solution k - y k) ≤ d := by
  intro s
  have h1 := C28_newton_partial (problem t symmetric ci0 pattern parts norm solve unassembled) q hq kept x
  refine ⟨norm (residual t parts s.solution), h1.2.1, ?_, fun y hy hd => ?_⟩
  · rcases (h1.2.2.2.1 hret).2.1 with ⟨a, b, ea, eb, hlt⟩ | ⟨a, b, ea, eb, hlt⟩
    · left
      have e1 : norm (residual t parts s.solution) = a := Option.some.inj ea
      rw [e1, Option.some.inj eb]
      exact hlt
    · right
      have e1 : norm (residual t parts s.solution) = a := Option.some.inj ea
      have e2 : norm (residual t parts x) * q.reduction = b := Option.some.inj eb
      rw [e1, e2]
      exact hlt
  · refine error_bound h parts alpha ha hm norm hnorm s.solution y (dirichlet_conforming hdir _) hy fun k hk => ?_
    rw [hd k hk]
    exact C246_dirichlet t h symmetric ci0 pattern parts hp norm solve hs unassembled q hforce habs hthr kept x k hk

/-- **C246 (linear problems).** For a linear problem that has one solution `apply` returns without exception after at most one iteration, from any initial guess,
with any kept matrix and any line search; the Dirichlet values are those of the guess. After an iteration the solution is the discrete solution, the same that
`StationaryLinearProblemSolver` computes. -/
theorem C246_linear (t : Trafo I F) (h : Admissible t) (hdir : ∀ k row, (k, row) ∈ t.rows → row = []) (symmetric : Bool) (ci0 : Nat → I)
    (pattern : List (PatternPart I)) (parts : List (Part I F)) (hp : PatternFits t pattern parts) (A : Part I F → Nat → Nat → F)
    (b : Part I F → Nat → F) (ha : ∀ p ∈ parts, Affine p (A p) (b p)) (hreg : Regular t parts) (norm : (I → F) → F) (hnorm : Definite norm)
    (solve : Matrix I F → (I → F) → Option F → Bool × (I → F) × Nat) (hs : Solves solve)
    (unassembled : (I → F) → Option F → Bool × (I → F) × Nat) (q : Newton.Params F)
    (hforce : q.forceIteration = false) (habs : 0 < q.absoluteLimit) (hthr : q.reassembleThreshold < 1)
    (hn : ∀ n e b, q.lineSearch = .hackbuschReusken n e b → 0 < n) (hmax : 1 ≤ q.maxIterations) (kept : Option (Option (I → F))) (x : I → F) :
    let out := Newton.apply (problem t symmetric ci0 pattern parts norm solve unassembled) q kept x
    out.2 = none ∧ out.1.result.iterations ≤ 1 ∧ (∀ k, t.Dirichlet k → out.1.solution k = x k) ∧
      (out.1.result.iterations = 1 → Galerkin t parts out.1.solution ∧
        ∀ direct, Exact direct → applyLinear t symmetric ci0 pattern parts direct false x = some out.1.solution) := by
  intro out
  have hl : ∀ k, ¬ Linear t k := fun k ⟨row, hm, hn⟩ => hn (hdir k row hm)
  have key : ∀ z y red,
      ((problem t symmetric ci0 pattern parts norm solve unassembled).solve (some z) y red).1 = true ∧
      (∀ k, t.Dirichlet k → ((problem t symmetric ci0 pattern parts norm solve unassembled).solve (some z) y red).2.1 k = 0) ∧
      Galerkin t parts fun k => y k - ((problem t symmetric ci0 pattern parts norm solve unassembled).solve (some z) y red).2.1 k := by
    intro z y red
    obtain ⟨m, hm, hsol⟩ := solvable h symmetric ci0 pattern parts hp A b ha hreg z (residual t parts y)
    have e : (problem t symmetric ci0 pattern parts norm solve unassembled).solve (some z) y red = solve m (residual t parts y) red := by
      show (match (some z).bind (jacobian t symmetric ci0 pattern parts) with
        | some m => solve m (residual t parts y) red
        | none => unassembled (residual t parts y) red) = _
      rw [Option.bind_some, hm]
    rw [e]
    have hz : jacobian t symmetric ci0 pattern parts y = some m := by
      rw [← hm]
      unfold jacobian
      congr 1
      refine List.map_congr_left fun p hp => ?_
      unfold Part.matrix
      rw [(ha p hp _).1, (ha p hp _).1]
    obtain ⟨m', hm', hzc, hzf⟩ := correction h symmetric ci0 pattern parts hp A b ha hreg (fun m r => (solve m r red).2.1)
      (fun m r hr => (hs m r red hr).2) y
    rw [hz] at hm'
    cases hm'
    have hg := corrected h parts A b ha y _ (dirichlet_conforming hdir y) hzc hzf
    refine ⟨(hs m _ red hsol).1, fun k hk => hzc k ⟨_, hk⟩, ?_⟩
    have he : (fun k => y k - backTransform t false (solve m (residual t parts y) red).2.1 k) = fun k => y k - (solve m (residual t parts y) red).2.1 k := by
      funext k; rw [(back_spec h _).1 k (hl k)]
    rw [← he]
    exact hg
  have hzero : ∀ r : I → F, norm r = 0 ↔ ∀ k, r k = 0 := fun r => (hnorm r).2
  have h1 := C225_converges (problem t symmetric ci0 pattern parts norm solve unassembled) q hforce habs hthr hn
    (problem_ok h symmetric ci0 pattern parts hp norm solve unassembled) 0 (le_refl 0) (by norm_num) (by
      intro z y red d hd
      obtain ⟨k1, -, k3⟩ := key z y red
      refine ⟨k1, 0, ?_, by rw [zero_mul]⟩
      exact congrArg some ((hzero _).mpr ((galerkin_iff h parts _).mp k3).2)) kept x _ rfl 1 hmax (Or.inl (by rw [pow_one, zero_mul]; exact habs))
  have h2 : ∀ k, t.Dirichlet k → out.1.solution k = x k := by
    refine apply_keeps (problem t symmetric ci0 pattern parts norm solve unassembled) q hforce habs hthr
      (problem_ok h symmetric ci0 pattern parts hp norm solve unassembled) (fun y => ∀ k, t.Dirichlet k → y k = x k) ?_ kept x _ rfl fun _ _ => rfl
    intro z y red hy _ l k hk
    show y k - l * ((problem t symmetric ci0 pattern parts norm solve unassembled).solve (some z) y red).2.1 k = x k
    rw [(key z y red).2.1 k hk, mul_zero, sub_zero, hy k hk]
  refine ⟨h1.1, h1.2.1, h2, fun hi => ?_⟩
  have hg : Galerkin t parts out.1.solution := by
    obtain ⟨d, hd, hle⟩ := h1.2.2
    rw [show (Newton.apply (problem t symmetric ci0 pattern parts norm solve unassembled) q kept x).1.result.iterations = 1 from hi, pow_one, zero_mul] at hle
    have e : norm (residual t parts out.1.solution) = 0 :=
      le_antisymm (by rw [show norm (residual t parts out.1.solution) = d from Option.some.inj hd]; exact hle) (hnorm _).1
    exact (galerkin_iff h parts _).mpr ⟨dirichlet_conforming hdir _, (hzero _).mp e⟩
  refine ⟨hg, fun direct hdirect => ?_⟩
  obtain ⟨x', e1, -, -, e4⟩ := C232_dirichlet_only t h hdir symmetric ci0 pattern parts hp A b ha hreg direct hdirect x
  rw [e1, e4 _ hg h2]

end

section FEM
open LocalOp LocalOp.Spec LocalOp.FEM FEMMesh
variable {K P Q I : Type} [Field K] [LinearOrder K] [IsStrictOrderedRing K] [Inhabited I] [DecidableEq I] [Fintype I] {d N : Nat} {n : Fin N → Nat}

/-- **C246 (finite elements).** Newton's method with the conforming finite element operator of an elliptic problem and Dirichlet constraints. -/
theorem C246_fem (add : Int) (mesh : Mesh K P Q I d n) (t : Trafo I K) (h : Admissible t) (hdir : ∀ k row, (k, row) ∈ t.rows → row = [])
    (hin : ConstrainedInCells t mesh) (he : Elliptic add t mesh) (hb : Incompressible add t mesh) (symmetric : Bool) (ci0 : Nat → I)
    (norm : (I → K) → K) (hnorm : NewtonSolve.Definite norm) (solve : Assembly.Matrix I K → (I → K) → Option K → Bool × (I → K) × Nat)
    (hs : Solves solve) (unassembled : (I → K) → Option K → Bool × (I → K) × Nat) (q : Newton.Params K)
    (hforce : q.forceIteration = false) (habs : 0 < q.absoluteLimit) (hthr : q.reassembleThreshold < 1)
    (hn : ∀ n e b, q.lineSearch = .hackbuschReusken n e b → 0 < n) (hmax : 1 ≤ q.maxIterations) (kept : Option (Option (I → K))) (x : I → K) :
    let out := Newton.apply (problem t symmetric ci0 (meshPattern mesh) (meshParts add mesh) norm solve unassembled) q kept x
    out.2 = none ∧ out.1.result.iterations ≤ 1 ∧ (∀ k, t.Dirichlet k → out.1.solution k = x k) ∧
      (out.1.result.iterations = 1 → Solution add t mesh out.1.solution) := by
  intro out
  obtain ⟨h1, h2, h3, h4⟩ := C246_linear t h hdir symmetric ci0 (meshPattern mesh) (meshParts add mesh) (pattern_fits add t mesh hin) _ _
    (parts_affine add mesh he.conditions) (regular add t mesh he hb) norm hnorm solve hs unassembled q hforce habs hthr hn hmax kept x
  exact ⟨h1, h2, h3, fun hi => (galerkin_iff add t mesh _).mp (h4 hi).1⟩

end FEM

section DG
open LocalOp LocalOp.Spec LocalOp.DG DGSolve
variable {K P Q : Type} [Field K] [LinearOrder K] [IsStrictOrderedRing K] {d N : Nat} {n : Fin N → Nat}

/-- **C246 (discontinuous Galerkin).** Newton's method with the interior penalty operator, with a penalty above the threshold. -/
theorem C246_dg [Inhabited ((c : Fin N) × Fin (n c))] (op : Op K) (mesh : Mesh K P Q d n) (h : Definite op mesh) (symmetric : Bool)
    (ci0 : Nat → (c : Fin N) × Fin (n c)) (norm : MeshVec K n → K) (hnorm : NewtonSolve.Definite norm)
    (solve : Assembly.Matrix ((c : Fin N) × Fin (n c)) K → MeshVec K n → Option K → Bool × MeshVec K n × Nat)
    (hs : Solves solve) (unassembled : MeshVec K n → Option K → Bool × MeshVec K n × Nat) (q : Newton.Params K)
    (hforce : q.forceIteration = false) (habs : 0 < q.absoluteLimit) (hthr : q.reassembleThreshold < 1)
    (hn : ∀ n e b, q.lineSearch = .hackbuschReusken n e b → 0 < n) (hmax : 1 ≤ q.maxIterations) (kept : Option (Option (MeshVec K n))) (x : MeshVec K n) :
    let out := Newton.apply (problem Trafo.empty symmetric ci0 (meshPattern mesh) (meshParts op mesh) norm solve unassembled) q kept x
    out.2 = none ∧ out.1.result.iterations ≤ 1 ∧ (out.1.result.iterations = 1 → ∀ w, dgForm op mesh out.1.solution w = 0) := by
  intro out
  have hA := accepts op mesh h.incompressible
  obtain ⟨h1, h2, -, h4⟩ := C246_linear Trafo.empty admissible (fun k row hm => by cases hm) symmetric ci0 (meshPattern mesh) (meshParts op mesh)
    (pattern_fits op mesh _) _ _ (parts_affine op mesh hA) (regular op mesh h) norm hnorm solve hs unassembled q hforce habs hthr hn hmax kept x
  exact ⟨h1, h2, fun hi => (galerkin_iff op mesh hA _).mp (h4 hi).1⟩

end DG

section CCFV
open LocalOp LocalOp.Spec LocalOp.CCFV GridAssembler CCFVSolve
variable {K P Q I : Type} [Field K] [LinearOrder K] [IsStrictOrderedRing K] [Inhabited I] [DecidableEq I] [Fintype I] {d : Nat}

/-- **C246 (finite volumes).** Newton's method with the cell-centred finite volume operator: after an iteration the fluxes balance in every cell. -/
theorem C246_fv (allPartitions : Bool) (pb : LocalOp.CCFV.Problem K P Q d) (h : WellPosed allPartitions pb) (hr : ∀ c ∈ pb.cells, Reaches allPartitions pb c)
    (dof : Nat → I) (hnum : Numbering pb.cells dof) (symmetric : Bool) (ci0 : Nat → I)
    (norm : (I → K) → K) (hnorm : NewtonSolve.Definite norm) (solve : Assembly.Matrix I K → (I → K) → Option K → Bool × (I → K) × Nat)
    (hs : Solves solve) (unassembled : (I → K) → Option K → Bool × (I → K) × Nat) (q : Newton.Params K)
    (hforce : q.forceIteration = false) (habs : 0 < q.absoluteLimit) (hthr : q.reassembleThreshold < 1)
    (hn : ∀ n e b, q.lineSearch = .hackbuschReusken n e b → 0 < n) (hmax : 1 ≤ q.maxIterations) (kept : Option (Option (I → K))) (x : I → K) :
    let out := Newton.apply (problem Trafo.empty symmetric ci0 (meshPattern allPartitions pb.cells dof) (meshParts allPartitions pb dof) norm solve
      unassembled) q kept x
    out.2 = none ∧ out.1.result.iterations ≤ 1 ∧ (out.1.result.iterations = 1 → Balanced allPartitions pb (inCells dof out.1.solution)) := by
  intro out
  obtain ⟨h1, h2, -, h4⟩ := C246_linear Trafo.empty admissible_empty (fun k row hm => by cases hm) symmetric ci0 _ _
    (pattern_fits allPartitions pb h.grid dof hnum _) _ _ (parts_affine allPartitions pb dof) (regular allPartitions pb h hr dof hnum) norm hnorm solve hs
    unassembled q hforce habs hthr hn hmax kept x
  exact ⟨h1, h2, fun hi => (fv_form_iff allPartitions pb h dof hnum _).mp fun w => (h4 hi).1.2 w (homogeneous_any w)⟩

end CCFV

/-- A nonlinear problem with two degrees of freedom, the first of which is a Dirichlet node: diffusion between them and the reaction `u^3` in the second. -/
def cubicPart : Part (Fin 2) ℚ where
  nv := 2
  nu := 2
  v := fun i => Fin.ofNat 2 i
  u := fun i => Fin.ofNat 2 i
  residual := fun x i => if i = 0 then x 0 - x 1 else x 1 - x 0 + x 1 ^ 3
  jacobian := fun x i j => if i = 0 then (if j = 0 then 1 else -1) else (if j = 0 then -1 else 1 + 3 * x 1 ^ 2)
/-- The constraints. -/
def cubicTrafo : Trafo (Fin 2) ℚ := ⟨[(0, [])], false⟩
/-- All couplings. -/
def cubicPattern : List (PatternPart (Fin 2)) := [⟨2, 2, fun i => Fin.ofNat 2 i, fun i => Fin.ofNat 2 i, [(0, 0), (0, 1), (1, 0), (1, 1)]⟩]
/-- Elimination of the first unknown. -/
def cubicSolve (m : Matrix (Fin 2) ℚ) (r : Fin 2 → ℚ) (_ : Option ℚ) : Bool × (Fin 2 → ℚ) × Nat :=
  (true, ![r 0, (r 1 - m.val 1 0 * r 0) / m.val 1 1], 1)

theorem cubic_form (x w : Fin 2 → ℚ) : form [cubicPart] x w = w 0 * (x 0 - x 1) + w 1 * (x 1 - x 0 + x 1 ^ 3) := by
  simp [form, cubicPart, List.range_succ]

theorem cubic_dirichlet (x y : Fin 2 → ℚ) (h : ∀ k, cubicTrafo.Dirichlet k → x k = y k) : x 0 = y 0 :=
  h 0 (by unfold Trafo.Dirichlet cubicTrafo; simp)

theorem cubic_monotone : StronglyMonotone cubicTrafo [cubicPart] 1 := by
  intro x y _ _ h
  have h0 := cubic_dirichlet x y h
  rw [cubic_form, cubic_form, Fin.sum_univ_two, h0]
  nlinarith [mul_nonneg (sq_nonneg (x 1 - y 1)) (show 0 ≤ x 1 ^ 2 + x 1 * y 1 + y 1 ^ 2 by nlinarith [sq_nonneg (x 1 + y 1), sq_nonneg (x 1), sq_nonneg (y 1)])]

theorem cubicTrafo_admissible : Admissible cubicTrafo where
  keys := by decide
  flag := by
    intro h k row hm
    simp [cubicTrafo] at *
    tauto
  chains := by
    intro k row hm e he
    simp only [cubicTrafo, List.mem_singleton, Prod.mk.injEq] at hm
    rw [hm.2] at he
    cases he

theorem cubicPattern_fits : PatternFits cubicTrafo cubicPattern [cubicPart] where
  valid := by
    intro q hq
    simp only [cubicPattern, List.mem_singleton] at hq
    subst hq
    intro l hl
    fin_cases hl <;> decide
  covered := by
    intro x p hp i hi j hj _
    simp only [List.map_cons, List.map_nil, List.mem_singleton] at hp
    subst hp
    have hi' : i < 2 := hi
    have hj' : j < 2 := hj
    refine ⟨_, List.mem_singleton.mpr rfl, (i, j), ?_, rfl, rfl⟩
    interval_cases i <;> interval_cases j <;> simp
  diagonal := by
    intro k _
    fin_cases k
    · exact ⟨_, List.mem_singleton.mpr rfl, (0, 0), by simp, rfl, rfl⟩
    · exact ⟨_, List.mem_singleton.mpr rfl, (1, 1), by simp, rfl, rfl⟩

theorem cubic_norm : TwoNorm cubicTrafo fun r : Fin 2 → ℚ => |r 1| := by
  intro r hr
  have h0 := hr 0 (by unfold Trafo.Dirichlet cubicTrafo; simp)
  exact ⟨abs_nonneg _, by rw [Fin.sum_univ_two, h0, sq_abs]; ring⟩

theorem cubicSolve_keeps : KeepsTrivialRows cubicSolve := by
  intro m r red k hk hr _
  fin_cases k
  · exact hr
  · have h0 := hk 0
    simp at h0 hr
    show (r 1 - m.val 1 0 * r 0) / m.val 1 1 = 0
    rw [h0, hr]
    simp

/-- The Newton solver for the example, with the defaults of the line search. -/
def cubicParams : Newton.Params ℚ := { newtonParams with reassembleThreshold := 0, lineSearch := .hackbuschReusken 10 (1 / 2) false, maxIterations := 40 }

/-- From the Dirichlet value 2 and the guess 0 the full step is rejected; the half step finds the solution (2, 1). -/
theorem cubic_run : let out := Newton.apply (problem cubicTrafo true (fun _ => 0) cubicPattern [cubicPart] (fun r => |r 1|) cubicSolve
    fun _ _ => (false, 0, 0)) cubicParams none ![2, 0]
    out.2 = none ∧ out.1.solution = ![2, 1] ∧ out.1.result.iterations = 1 := by
  decide +kernel

example : ∃ d : ℚ, ∀ y, Galerkin cubicTrafo [cubicPart] y → (∀ k, cubicTrafo.Dirichlet k → y k = ![2, 0] k) →
    1 * |(![2, 1] : Fin 2 → ℚ) 1 - y 1| ≤ d := by
  obtain ⟨d, -, -, h⟩ := C246_error cubicTrafo cubicTrafo_admissible (fun k row hm => by
      simp only [cubicTrafo, List.mem_singleton, Prod.mk.injEq] at hm; exact hm.2) true (fun _ => 0) cubicPattern [cubicPart] cubicPattern_fits 1 one_pos
    cubic_monotone (fun r => |r 1|) cubic_norm cubicSolve cubicSolve_keeps (fun _ _ => (false, 0, 0)) cubicParams (by
      unfold Newton.Spec.Damped cubicParams; norm_num) rfl (by decide +kernel) (by decide +kernel) none ![2, 0] cubic_run.1
  refine ⟨d, fun y hy hd => ?_⟩
  have := h y hy hd
  rwa [cubic_run.2.1] at this

section
open FEMMesh

/-- The chosen solver as the solver of Newton's method. -/
noncomputable def chosenReport {I F : Type} [DecidableEq I] [Field F] [Fintype I] (m : Matrix I F) (r : I → F) (_ : Option F) : Bool × (I → F) × Nat :=
  (true, chosen m r, 1)

theorem chosenReport_solves {I F : Type} [DecidableEq I] [Field F] [LinearOrder F] [Fintype I] :
    Solves (chosenReport : Matrix I F → (I → F) → Option F → Bool × (I → F) × Nat) :=
  fun m r _ h => ⟨rfl, chosen_exact m r h⟩

theorem sum_abs_definite {I F : Type} [DecidableEq I] [Field F] [LinearOrder F] [IsStrictOrderedRing F] [Fintype I] :
    NewtonSolve.Definite fun r : I → F => ∑ k, |r k| := by
  intro r
  refine ⟨Finset.sum_nonneg fun k _ => abs_nonneg _, ?_⟩
  rw [Finset.sum_eq_zero_iff_of_nonneg fun k _ => abs_nonneg _]
  simp

/-- The finite element example of C237. -/
example (kept : Option (Option (Fin 3 → ℚ))) (x : Fin 3 → ℚ) :
    (Newton.apply (problem femTrafo true (fun _ => 0) (LocalOp.FEM.meshPattern femMesh) (LocalOp.FEM.meshParts 0 femMesh) (fun r => ∑ k, |r k|) chosenReport
      fun _ _ => (false, 0, 0)) cubicParams kept x).2 = none :=
  (C246_fem 0 femMesh femTrafo femTrafo_admissible (fun k row hm => by
      simp only [femTrafo, List.mem_singleton, Prod.mk.injEq] at hm; exact hm.2) femMesh_constrained femMesh_elliptic femMesh_incompressible true (fun _ => 0)
    _ sum_abs_definite chosenReport chosenReport_solves (fun _ _ => (false, 0, 0)) cubicParams rfl (by decide +kernel) (by decide +kernel)
    (by intro n e b h; cases h; decide) (by decide) kept x).1

end

end Verif
