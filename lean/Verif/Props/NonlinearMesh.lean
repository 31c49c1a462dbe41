import Verif.Proofs.NonlinearMesh
import Verif.Props.NewtonSolve
import Verif.Props.NewtonStep
/-
C250: the nonlinear finite element method on a mesh, solved with Newton's method and numerical Jacobians.
-/
namespace Verif
open Constraints Assembly ConstrainedSolve NewtonSolve NewtonStep TransientSolve LocalOp LocalOp.Spec LocalOp.NonlinearFEM NonlinearMesh
open OneStep (Kind Setting St Scheme DTMode OSM PDERes factors)

section
variable {K P Q I : Type} [Field K] [LinearOrder K] [IsStrictOrderedRing K] [Inhabited I] [DecidableEq I] {d N : Nat} {n : Fin N → Nat}

/-- **C250 (Jacobian).** The numerical Jacobian of a local operator is the difference quotient of the residual in every coordinate direction, and the exact matrix if
the residual is an affine function of the coefficients. -/
theorem C250_jacobian {m : Nat} (eps : K) (heps : 0 < eps) (alpha : (Fin m → K) → Calls (Fin m) K) (x : Fin m → K) :
    (∀ i j, ∃ delta, delta = eps * (1 + |x j|) ∧ 0 < delta ∧
      total (numericalJacobian eps alpha x) (i, j) = (total (alpha (x + Pi.single j delta)) i - total (alpha x) i) / delta) ∧
    ∀ J : Fin m × Fin m → K, IsAffineWith (fun x => total (alpha x)) J → ∀ i j, total (numericalJacobian eps alpha x) (i, j) = J (i, j) := by
  have hupd : ∀ (j : Fin m) (a : K), Function.update x j (x j + a) = x + Pi.single j a := by
    intro j a
    funext k
    by_cases hk : k = j
    · subst hk; simp
    · simp [hk]
  constructor
  · intro i j
    refine ⟨NumericalJacobian.delta eps (x j), ?_, delta_pos eps _ heps, ?_⟩
    · unfold NumericalJacobian.delta
      split
      · rw [abs_of_nonneg (by assumption)]
      · rw [abs_of_neg (by linarith)]
    · rw [total_numerical, hupd]
  · intro J hJ i j
    exact numerical_exact eps heps alpha x J hJ i j

/-- **C250 (weak form).** What the grid operator collects from the cells and boundary faces, tested with a finite element function, is the weak form of the equation on
the mesh, if `w(u) = u`. -/
theorem C250_weak_form (eps : K) (intorder : Int) (mesh : NonlinearFEM.Mesh K P Q I d n) (hw : ∀ c p u, (mesh.par c).w p u = u)
    (hF : ∀ F ∈ mesh.boundary, ∀ p u, F.par.w p u = u) (x w : I → K) :
    form (NonlinearFEM.meshParts eps intorder mesh) x w = NonlinearFEM.weakForm intorder mesh x w := NonlinearMesh.form_weak eps intorder mesh hw hF x w

variable [Fintype I]

/-- **C250 (Newton).** A semilinear problem with Dirichlet constraints whose energy is coercive with constant `alpha`. If Newton's method returns, its solution has the
Dirichlet values of the initial guess and the residual of its weak form is at most the reported defect `d`, for all test functions; `d` is below the absolute limit or
the wanted fraction of the first defect; and the distance to the solution of the weak form is at most `d / alpha`. -/
theorem C250_error (eps : K) (intorder : Int) (mesh : NonlinearFEM.Mesh K P Q I d n) (hm : Semilinear intorder mesh) (t : Trafo I K) (h : Admissible t)
    (hdir : ∀ k row, (k, row) ∈ t.rows → row = []) (hc : NonlinearFEM.ConstrainedInCells t mesh.dof) (alpha : K) (ha : 0 < alpha)
    (hco : Coercive intorder t mesh alpha) (symmetric : Bool) (ci0 : Nat → I) (norm : (I → K) → K)
    (solve : Assembly.Matrix I K → (I → K) → Option K → Bool × (I → K) × Nat) (unassembled : (I → K) → Option K → Bool × (I → K) × Nat) (q : Newton.Params K)
    (hq : SolverSetup t norm solve q) (kept : Option (Option (I → K))) (x : I → K)
    (hret : (Newton.apply (NewtonSolve.problem t symmetric ci0 (NonlinearFEM.meshPattern mesh) (NonlinearFEM.meshParts eps intorder mesh) norm solve unassembled)
      q kept x).2 = none) :
    let s := (Newton.apply (NewtonSolve.problem t symmetric ci0 (NonlinearFEM.meshPattern mesh) (NonlinearFEM.meshParts eps intorder mesh) norm solve unassembled) q kept x).1
    (∀ k, t.Dirichlet k → s.solution k = x k) ∧
    ∃ d, s.result.defect = some d ∧ d ≤ tolerance q (norm (residual t (NonlinearFEM.meshParts eps intorder mesh) x)) ∧
      (∀ w, Homogeneous t w → |NonlinearFEM.weakForm intorder mesh s.solution w| ≤ d * norm w) ∧
      ∀ y, (∀ k, t.Dirichlet k → y k = x k) → (∀ w, Homogeneous t w → NonlinearFEM.weakForm intorder mesh y w = 0) →
        alpha * norm (fun k => s.solution k - y k) ≤ d := by
  intro s
  have hp := NonlinearMesh.pattern_fits eps intorder t mesh hc
  have hmono := NonlinearMesh.strongly_monotone eps intorder t mesh hm alpha hco
  have hform := C250_weak_form eps intorder mesh hm.identity hm.faceIdentity
  obtain ⟨d, h1, h2, h3⟩ := C246_error t h hdir symmetric ci0 _ _ hp alpha ha hmono norm hq.norm solve hq.keeps unassembled q hq.damped hq.noForce hq.positive
    hq.reassembles kept x hret
  have h4 := (C28_newton_partial (NewtonSolve.problem t symmetric ci0 (NonlinearFEM.meshPattern mesh) (NonlinearFEM.meshParts eps intorder mesh) norm solve unassembled)
    q hq.damped kept x).2.1
  have hd : norm (residual t (NonlinearFEM.meshParts eps intorder mesh) s.solution) = d := Option.some.inj (h4.symm.trans h1)
  refine ⟨C246_dirichlet t h symmetric ci0 _ _ hp norm solve hq.keeps unassembled q hq.noForce hq.positive hq.reassembles kept x, d, h1, ?_, ?_, ?_⟩
  · unfold tolerance
    rcases h2 with h2 | h2
    · exact le_max_of_le_left h2.le
    · exact le_max_of_le_right h2.le
  · intro w hw
    rw [← hform, ← hd]
    exact form_le h _ norm hq.norm s.solution w hw
  · intro y hyD hy
    exact h3 y ⟨dirichlet_conforming hdir _, fun w hw => by rw [hform]; exact hy w hw⟩ hyD

/-- **C250 (linear problems).** If source and outflow are affine, numerical Jacobians do no harm: with an exact linear solver Newton's method returns after at most one
iteration, from any guess, and after an iteration its result solves the weak form. -/
theorem C250_linear (eps : K) (heps : 0 < eps) (intorder : Int) (mesh : NonlinearFEM.Mesh K P Q I d n) (hm : Semilinear intorder mesh) (ham : AffineData mesh)
    (t : Trafo I K) (h : Admissible t) (hdir : ∀ k row, (k, row) ∈ t.rows → row = []) (hc : NonlinearFEM.ConstrainedInCells t mesh.dof) (alpha : K) (ha : 0 < alpha)
    (hco : Coercive intorder t mesh alpha) (symmetric : Bool) (ci0 : Nat → I) (norm : (I → K) → K) (hnorm : NewtonSolve.Definite norm)
    (solve : Assembly.Matrix I K → (I → K) → Option K → Bool × (I → K) × Nat) (hs : Solves solve) (unassembled : (I → K) → Option K → Bool × (I → K) × Nat)
    (q : Newton.Params K) (hforce : q.forceIteration = false) (habs : 0 < q.absoluteLimit) (hthr : q.reassembleThreshold < 1)
    (hn : ∀ n e b, q.lineSearch = .hackbuschReusken n e b → 0 < n) (hmax : 1 ≤ q.maxIterations) (kept : Option (Option (I → K))) (x : I → K) :
    let out := Newton.apply (NewtonSolve.problem t symmetric ci0 (NonlinearFEM.meshPattern mesh) (NonlinearFEM.meshParts eps intorder mesh) norm solve unassembled) q kept x
    out.2 = none ∧ out.1.result.iterations ≤ 1 ∧ (∀ k, t.Dirichlet k → out.1.solution k = x k) ∧
      (out.1.result.iterations = 1 → ∀ w, Homogeneous t w → NonlinearFEM.weakForm intorder mesh out.1.solution w = 0) := by
  intro out
  obtain ⟨h1, h2, h3, h4⟩ := C246_linear t h hdir symmetric ci0 _ _ (NonlinearMesh.pattern_fits eps intorder t mesh hc) _ _
    (NonlinearMesh.parts_affine eps heps intorder mesh hm ham) (NonlinearMesh.regular eps intorder t mesh hm alpha ha hco) norm hnorm solve hs unassembled q hforce habs hthr
    hn hmax kept x
  refine ⟨h1, h2, h3, fun hi w hw => ?_⟩
  rw [← C250_weak_form eps intorder mesh hm.identity hm.faceIdentity]
  exact (h4 hi).1.2 w hw

/-- **C250 (time steps).** A semilinear parabolic problem with Dirichlet constraints and the `L2` operator as mass operator, a step of an implicit one-step method with
Newton's method. If the step succeeds, every stage has the Dirichlet values of its time and satisfies the equation of the scheme, with the weak form at the times of the
stages, up to a defect `d` for all test functions; `d` is at most the wanted one; and the distance to a vector that satisfies the equation exactly is at most
`d / (f1 mu)`. -/
theorem C250_step {T : Type} [Add T] [Zero T] (eps : K) (intorder intorderadd : Int) (scaling : K) (pb : NonlinearFEM.Transient K P Q I d n) (mu : K) (hmu : 0 < mu)
    (t : Trafo I K) (hpb : NonlinearFEM.Parabolic intorder intorderadd scaling t pb mu) (h : Admissible t) (hdir : ∀ k row, (k, row) ∈ t.rows → row = [])
    (hc : NonlinearFEM.ConstrainedInCells t pb.dof) (symmetric : Bool) (ci0 : Nat → I) (norm : (I → K) → K)
    (solve : Assembly.Matrix I K → (I → K) → Option K → Bool × (I → K) × Nat) (unassembled : (I → K) → Option K → Bool × (I → K) × Nat) (q : Newton.Params K)
    (hq : SolverSetup t norm solve q) (S : Scheme K) (hS : LocalOp.FEM.SolvableStages S) (time dt : K) (hdt : 0 < dt) (mode : DTMode) (st0 : St K (I → K) (I → K))
    (g : K → I → K) (stats : Newton.Result K → PDERes T) (o : OSM T) (mem : Nat → I → K) (kept : Option (Option (I → K)))
    (hsucc : (o.apply (newtonEnv t symmetric ci0 pb.pattern S time dt mode (pb.spatial eps intorder) (pb.temporal intorderadd scaling) pb.trace st0 norm solve unassembled
      q g stats) mem kept).1 = .success) :
    let x := (o.apply (newtonEnv t symmetric ci0 pb.pattern S time dt mode (pb.spatial eps intorder) (pb.temporal intorderadd scaling) pb.trace st0 norm solve unassembled
      q g stats) mem kept).2.1.mem
    x 0 = mem 0 ∧ ∀ r, 1 ≤ r → r ≤ S.s →
      (∀ k, t.Dirichlet k → x r k = g (time + S.d r * dt) k) ∧
      ∃ d guess, IsGuess t (g (time + S.d r * dt)) (if r = 1 then mem S.s else x (r - 1)) guess ∧
        d ≤ tolerance q (norm (stageResidual t ⟨S, time, dt, mode, r⟩ (pb.spatial eps intorder) (pb.temporal intorderadd scaling)
          (stageConst t ⟨S, time, dt, mode, r⟩ (pb.spatial eps intorder) (pb.temporal intorderadd scaling) pb.trace x st0) pb.trace guess)) ∧
        (∀ w, Homogeneous t w → |NonlinearFEM.schemeForm intorder intorderadd scaling pb ⟨S, time, dt, mode, r⟩ x w| ≤ d * norm w) ∧
        ∀ y, (∀ k, t.Dirichlet k → y k = g (time + S.d r * dt) k) →
          (∀ w, Homogeneous t w → NonlinearFEM.schemeForm intorder intorderadd scaling pb ⟨S, time, dt, mode, r⟩ (OneStep.upd x r y) w = 0) →
          (factors mode dt).2 * mu * norm (fun k => x r k - y k) ≤ d := by
  intro x
  obtain ⟨h0, h1⟩ := C249_step t h hdir symmetric ci0 pb.pattern (pb.spatial eps intorder) (pb.temporal intorderadd scaling) pb.trace mu hmu
    (NonlinearMesh.evolution eps intorder intorderadd scaling t pb mu hc hpb) norm solve unassembled q hq S hS time dt hdt mode st0 g stats o mem kept hsucc
  refine ⟨h0, fun r hr hrs => ?_⟩
  obtain ⟨h2, d, guess, h3, h4, h5, h6⟩ := h1 r hr hrs
  have hform := NonlinearMesh.scheme_form eps intorder intorderadd scaling pb (fun τ => (hpb.semilinear τ).identity) (fun τ => (hpb.semilinear τ).faceIdentity)
    ⟨S, time, dt, mode, r⟩
  refine ⟨h2, d, guess, h3, h4, fun w hw => ?_, fun y hyD hy => h6 y hyD fun w hw => ?_⟩
  · rw [← hform]
    exact h5 w hw
  · rw [hform]
    exact hy w hw

/-- **C250 (implicit Euler).** Over all steps, with steps of any positive sizes: the distance to the exact solution of the implicit Euler scheme in the norm of the mass
operator is at most the initial one plus the sum of the tolerances of Newton's method, scaled. (The norm of the mass operator dominates the Euclidean one.) -/
theorem C250_history {T : Type} [Add T] [Zero T] (eps : K) (intorder intorderadd : Int) (scaling : K) (pb : NonlinearFEM.Transient K P Q I d n) (mu : K) (hmu : 0 < mu)
    (t : Trafo I K) (hpb : NonlinearFEM.Parabolic intorder intorderadd scaling t pb mu) (h : Admissible t) (hdir : ∀ k row, (k, row) ∈ t.rows → row = [])
    (hc : NonlinearFEM.ConstrainedInCells t pb.dof) (symmetric : Bool) (ci0 : Nat → I) (norm : (I → K) → K)
    (solve : Assembly.Matrix I K → (I → K) → Option K → Bool × (I → K) × Nat) (unassembled : (I → K) → Option K → Bool × (I → K) × Nat) (q : Newton.Params K)
    (hq : SolverSetup t norm solve q) (mode : DTMode) (massNorm : (I → K) → K) (hN0 : ∀ w, 0 ≤ massNorm w)
    (hN : ∀ w, massNorm w ^ 2 = NonlinearFEM.massForm intorderadd scaling pb w w) (sigma : K) (hsigma : 0 < sigma)
    (hdom : ∀ w, (∀ k, t.Dirichlet k → w k = 0) → sigma * norm w ≤ massNorm w) (st0 : St K (I → K) (I → K)) (g : K → I → K)
    (stats : Newton.Result K → PDERes T) (o : Nat → OSM T) (mem : Nat → Nat → I → K) (kept : Nat → Option (Option (I → K))) (times : Nat → K)
    (htimes : ∀ k, times k < times (k + 1)) (m : Nat) (x : Nat → I → K) (hold : ∀ k, k < m → mem k 0 = x k)
    (hstep : ∀ k, k < m →
      let out := (o k).apply (newtonEnv t symmetric ci0 pb.pattern OneStep.implicitEuler (times k) (times (k + 1) - times k) mode (pb.spatial eps intorder)
        (pb.temporal intorderadd scaling) pb.trace st0 norm solve unassembled q g stats) (mem k) (kept k)
      out.1 = .success ∧ x (k + 1) = out.2.1.mem 1)
    (y : Nat → I → K) (hyD : ∀ k, k < m → ∀ i, t.Dirichlet i → y (k + 1) i = g (times (k + 1)) i)
    (hy : ∀ k, k < m → ∀ w, Homogeneous t w → NonlinearFEM.schemeForm intorder intorderadd scaling pb
      ⟨OneStep.implicitEuler, times k, times (k + 1) - times k, mode, 1⟩ (two (y k) (y (k + 1))) w = 0) :
    ∃ tol : Nat → K,
      (∀ k, k < m → ∃ guess, IsGuess t (g (times (k + 1))) (mem k 1) guess ∧
        tol k = tolerance q (norm (stageResidual t ⟨OneStep.implicitEuler, times k, times (k + 1) - times k, mode, 1⟩ (pb.spatial eps intorder)
          (pb.temporal intorderadd scaling) (stageConst t ⟨OneStep.implicitEuler, times k, times (k + 1) - times k, mode, 1⟩ (pb.spatial eps intorder)
            (pb.temporal intorderadd scaling) pb.trace (two (x k) (x (k + 1))) st0) pb.trace guess))) ∧
      massNorm (fun i => x m i - y m i) ≤
        massNorm (fun i => x 0 i - y 0 i) + ∑ k ∈ Finset.range m, tol k / ((factors mode (times (k + 1) - times k)).2 * sigma) := by
  refine C249_history t h hdir symmetric ci0 pb.pattern (pb.spatial eps intorder) (pb.temporal intorderadd scaling) pb.trace mu hmu
    (NonlinearMesh.evolution eps intorder intorderadd scaling t pb mu hc hpb) norm solve unassembled q hq mode
    (NonlinearFEM.massForm intorderadd scaling pb) massNorm sigma hsigma
    ⟨fun a b w => mass_sub_left _ _ (NonlinearMesh.asFEM pb) a b w, fun c a w => mass_smul _ _ (NonlinearMesh.asFEM pb) c a w,
      fun a w => mass_symm _ _ (NonlinearMesh.asFEM pb) a w, hN0, hN, hdom⟩
    (fun τ x w => by rw [NonlinearMesh.parts_temporal, NonlinearMesh.form_mass]) st0 g stats o mem kept times htimes m (fun k hk => (hstep k hk).1) x hold
    (fun k hk => (hstep k hk).2) y hyD fun k hk w hw => ?_
  rw [NonlinearMesh.scheme_form eps intorder intorderadd scaling pb (fun τ => (hpb.semilinear τ).identity) (fun τ => (hpb.semilinear τ).faceIdentity)]
  exact hy k hk w hw

end

/-! An example: one cell, the Dirichlet value on the left, `f(u) = 1 - u³` and `j(u) = u` on the right. -/

/-- `w(u) = u`, `v = 1`, `D = 1`, no convection. -/
def cubicPar : NonlinearFEM.Param ℚ ℚ Unit 1 := ⟨fun _ u => 1 - u ^ 3, fun _ u => u, fun _ _ => 1, fun _ => !![1], fun _ _ => 0, fun _ u => u, fun _ => false⟩
/-- The trapezoidal rule for order 2, and a rule that sees the right end only for the mass operator. -/
def cubicGeo : CellGeo ℚ ℚ 1 := { exNonlinearGeo with quadratureRule := fun o => if o = 2 then [(0, 1 / 2), (1, 1 / 2)] else [(1, 1)] }
/-- The cell and the face on the right. -/
def cubicMesh : NonlinearFEM.Mesh ℚ ℚ Unit (Fin 2) 1 (N := 1) fun _ => 2 :=
  ⟨fun _ => cubicGeo, fun _ => cubicPar, fun _ => exNonlinearFe, fun _ i => i, [⟨exNonlinearFace, 0, cubicPar⟩]⟩

theorem cubicMesh_semilinear : Semilinear 2 cubicMesh where
  weights c q hq := by
    have hq' : q ∈ [((0 : ℚ), (1 / 2 : ℚ)), (1, 1 / 2)] := hq
    change 0 ≤ q.2 * 1
    fin_cases hq' <;> norm_num
  faceWeights F hF q hq := by
    obtain rfl := List.mem_singleton.mp hF
    obtain rfl := List.mem_singleton.mp hq
    norm_num [exNonlinearFace]
  identity _ _ _ := rfl
  faceIdentity F hF _ _ := by
    obtain rfl := List.mem_singleton.mp hF
    rfl
  diffusion _ _ _ _ := rfl
  convection _ _ _ _ := rfl
  source _ _ a b := by
    change (1 - a ^ 3 - (1 - b ^ 3)) * (a - b) ≤ 0
    nlinarith [sq_nonneg (a - b), mul_nonneg (sq_nonneg (a - b)) (sq_nonneg (a + b)), mul_nonneg (sq_nonneg (a - b)) (sq_nonneg a),
      mul_nonneg (sq_nonneg (a - b)) (sq_nonneg b)]
  outflow F hF _ a b := by
    obtain rfl := List.mem_singleton.mp hF
    change 0 ≤ (a - b) * (a - b)
    exact mul_self_nonneg _

theorem cubicMesh_coercive : Coercive 2 cubicTrafo cubicMesh 1 := by
  intro w hw
  have h0 : w 0 = 0 := hw.2 0 (by unfold Trafo.Dirichlet cubicTrafo; simp)
  simp only [NonlinearFEM.meshEnergy, integrate, NonlinearFEM.Mesh.onCell, gradient, cubicMesh, cubicGeo, exNonlinearGeo, exNonlinearFe, cubicPar,
    List.map_cons, List.map_nil, List.sum_cons, List.sum_nil, Fin.sum_univ_two, Finset.univ_unique, Finset.sum_singleton]
  norm_num [Matrix.mulVec, dotProduct, Fin.sum_univ_two]
  rw [h0]
  nlinarith

/-- From the Dirichlet value 2 and the guess 0, with disturbances of relative size 1/100. -/
theorem cubicMesh_run : let out := Newton.apply (NewtonSolve.problem cubicTrafo true (fun _ => 0) (NonlinearFEM.meshPattern cubicMesh)
    (NonlinearFEM.meshParts (1 / 100) 2 cubicMesh) (fun r => |r 1|) cubicSolve fun _ _ => (false, 0, 0)) cubicParams none ![2, 0]
    out.2 = none ∧ 1 ≤ out.1.result.iterations ∧ out.1.solution 1 ≠ 1 := by
  decide +kernel

theorem cubicMesh_constrained : NonlinearFEM.ConstrainedInCells cubicTrafo cubicMesh.dof := fun k _ => ⟨0, k, rfl⟩

theorem cubicMesh_form (x w : Fin 2 → ℚ) : NonlinearFEM.weakForm 2 cubicMesh x w =
    (x 1 - x 0) * (w 1 - w 0) - (1 - x 0 ^ 3) / 2 * w 0 - (1 - x 1 ^ 3) / 2 * w 1 + x 1 * w 1 := by
  simp only [NonlinearFEM.weakForm, NonlinearFEM.cellForm, NonlinearFEM.faceForm, integrate, integrateFace, NonlinearFEM.Mesh.onCell, gradient, value, cubicMesh, cubicGeo,
    exNonlinearGeo, exNonlinearFe, exNonlinearFace, cubicPar, List.map_cons, List.map_nil, List.sum_cons, List.sum_nil, Fin.sum_univ_two, Finset.univ_unique,
    Finset.sum_singleton]
  norm_num [Matrix.mulVec, dotProduct, Fin.sum_univ_two]
  ring

theorem cubic_rows : ∀ k row, (k, row) ∈ cubicTrafo.rows → row = [] := fun k row hm => by
  simp only [cubicTrafo, List.mem_singleton, Prod.mk.injEq] at hm
  exact hm.2

/-- The exact solution is 1; the computed value is close to it. -/
example : let out := Newton.apply (NewtonSolve.problem cubicTrafo true (fun _ => 0) (NonlinearFEM.meshPattern cubicMesh)
    (NonlinearFEM.meshParts (1 / 100) 2 cubicMesh) (fun r => |r 1|) cubicSolve fun _ _ => (false, 0, 0)) cubicParams none ![2, 0]
    ∃ d, d ≤ tolerance cubicParams (5 / 2) ∧ |out.1.solution 1 - 1| ≤ d := by
  intro out
  obtain ⟨-, d, -, h1, -, h2⟩ := C250_error (1 / 100) 2 cubicMesh cubicMesh_semilinear cubicTrafo cubicTrafo_admissible cubic_rows cubicMesh_constrained 1 one_pos
    cubicMesh_coercive true (fun _ => 0) (fun r => |r 1|) cubicSolve (fun _ _ => (false, 0, 0)) cubicParams cubic_setup none ![2, 0] cubicMesh_run.1
  have h3 : |residual cubicTrafo (NonlinearFEM.meshParts (1 / 100) 2 cubicMesh) ![2, 0] 1| = 5 / 2 := by decide +kernel
  have h4 := h2 ![2, 1] (fun k hk => by
      have hk' : k = 0 := by
        unfold Trafo.Dirichlet cubicTrafo at hk
        simpa using hk
      subst hk'
      rfl) fun w hw => by
    have h0 : w 0 = 0 := hw.2 0 (by unfold Trafo.Dirichlet cubicTrafo; simp)
    rw [cubicMesh_form, h0]
    norm_num
  refine ⟨d, ?_, ?_⟩
  · rw [← h3]
    exact h1
  · rw [one_mul] at h4
    exact h4

/-- The numerical Jacobian of an affine local operator, and of the cubic one. -/
example : IsAffineWith (fun x => total (((List.finRange 2).map fun i => (i, 3 * x i + 1) : Calls (Fin 2) ℚ))) (fun p => if p.1 = p.2 then 3 else 0) := by
  intro x z i
  fin_cases i <;> simp [LocalOp.Spec.total, applyMatrix, List.finRange_succ] <;> ring
example : total (numericalJacobian (1 / 100) (alphaVolume 2 cubicPar cubicGeo exNonlinearFe) ![2, 0]) (1, 1) ≠ 1 := by decide +kernel

/-- The instationary problem. -/
def cubicTransient : NonlinearFEM.Transient ℚ ℚ Unit (Fin 2) 1 (N := 1) fun _ => 2 :=
  ⟨fun _ => cubicGeo, fun _ => exNonlinearFe, fun _ i => i, fun _ _ => cubicPar, [fun _ => ⟨exNonlinearFace, 0, cubicPar⟩]⟩

theorem cubicTransient_mass (x w : Fin 2 → ℚ) : NonlinearFEM.massForm 1 1 cubicTransient x w = x 1 * w 1 := by
  simp only [NonlinearFEM.massForm, integrate, value, cubicTransient, cubicGeo, exNonlinearGeo, exNonlinearFe, Finset.univ_unique, Finset.sum_singleton,
    Fin.sum_univ_two]
  norm_num

theorem cubicTransient_parabolic : NonlinearFEM.Parabolic 2 1 1 cubicTrafo cubicTransient 1 where
  semilinear _ := cubicMesh_semilinear
  elliptic τ c p a := by
    have : ((cubicTransient.par τ c).D (cubicTransient.geo c).center).mulVec ((cubicTransient.par τ c).v p 0 • a) ⬝ᵥ a = a 0 * a 0 := by
      simp [cubicTransient, cubicPar, Matrix.mulVec, dotProduct]
    rw [this]
    exact mul_self_nonneg _
  mass w hw := by
    have h0 : w 0 = 0 := hw.2 0 (by unfold Trafo.Dirichlet cubicTrafo; simp)
    rw [cubicTransient_mass, Fin.sum_univ_two, h0]
    exact le_of_eq (by ring)

/-- The environment of the step from time 0 to time 1, with the boundary value `2 τ`. -/
def cubicMeshEnv : OneStep.Env (Option (Option (Fin 2 → ℚ))) (Fin 2 → ℚ) Nat :=
  newtonEnv cubicTrafo true (fun _ => 0) cubicTransient.pattern OneStep.implicitEuler 0 (1 - 0) .multiplyOperator0ByDT (cubicTransient.spatial (1 / 100) 2)
    (cubicTransient.temporal 1 1) cubicTransient.trace ⟨⟨0, 0, 0⟩, ⟨0, 0, 0⟩, 0, 0⟩ (fun r => |r 1|) cubicSolve (fun _ _ => (false, 0, 0)) cubicParams
    (fun τ => ![2 * τ, 0]) fun r => ⟨0, 0, r.linearIterations, r.iterations⟩

/-- From the value 1 and a new vector that contains 0. -/
theorem cubicMesh_step : let out := (⟨0, OneStep.Stats.zero, OneStep.Stats.zero⟩ : OSM Nat).apply cubicMeshEnv (fun s => if s = 0 then ![0, 1] else ![5, 0]) none
    out.1 = .success ∧ out.2.1.mem 1 0 = 2 ∧ out.2.1.mem 1 1 ≠ 1 := by
  decide +kernel

/-- The exact solution of the equation of the step is 1; the computed value is close to it. -/
example : let out := (⟨0, OneStep.Stats.zero, OneStep.Stats.zero⟩ : OSM Nat).apply cubicMeshEnv (fun s => if s = 0 then ![0, 1] else ![5, 0]) none
    |out.2.1.mem 1 1 - 1| ≤ max cubicParams.absoluteLimit (7 / 2 * cubicParams.reduction) := by
  intro out
  obtain ⟨tol, h1, h2⟩ := C250_history (T := Nat) (1 / 100) 2 1 1 cubicTransient 1 one_pos cubicTrafo cubicTransient_parabolic cubicTrafo_admissible cubic_rows
    cubicMesh_constrained true (fun _ => 0) (fun r => |r 1|) cubicSolve (fun _ _ => (false, 0, 0)) cubicParams cubic_setup .multiplyOperator0ByDT (fun w => |w 1|)
    (fun w => abs_nonneg _) (fun w => by rw [sq_abs, cubicTransient_mass, sq]) 1 one_pos (fun w _ => by rw [one_mul]) ⟨⟨0, 0, 0⟩, ⟨0, 0, 0⟩, 0, 0⟩
    (fun τ => ![2 * τ, 0]) (fun r => ⟨0, 0, r.linearIterations, r.iterations⟩) (fun _ => ⟨0, OneStep.Stats.zero, OneStep.Stats.zero⟩)
    (fun _ s => if s = 0 then ![0, 1] else ![5, 0]) (fun _ => none) (fun k => k) (fun k => by push_cast; linarith) 1
    (fun k => if k = 0 then ![0, 1] else out.2.1.mem 1) (fun k hk => by
      obtain rfl : k = 0 := by omega
      rfl)
    (fun k hk => by
      obtain rfl : k = 0 := by omega
      exact ⟨cubicMesh_step.1, rfl⟩)
    (fun k => if k = 0 then ![0, 1] else ![2, 1]) (fun k hk i hi => by
      obtain rfl : k = 0 := by omega
      simp only [cubicTrafo, Trafo.Dirichlet, List.mem_singleton, Prod.mk.injEq] at hi
      rw [hi.1]
      norm_num)
    (fun k hk w hw => by
      obtain rfl : k = 0 := by omega
      have hw0 : w 0 = 0 := hw.2 0 (by unfold Trafo.Dirichlet cubicTrafo; simp)
      have e : ∀ τ x, NonlinearFEM.weakForm 2 (cubicTransient.at τ) x w = _ := fun τ x => cubicMesh_form x w
      simp only [NonlinearFEM.schemeForm, cubicTransient_mass, e, hw0, Finset.sum_range_succ, Finset.sum_range_zero]
      have a0 : (OneStep.implicitEuler : Scheme ℚ).a 1 0 = -1 := by decide +kernel
      have a1 : (OneStep.implicitEuler : Scheme ℚ).a 1 1 = 1 := by decide +kernel
      have b0 : (OneStep.implicitEuler : Scheme ℚ).b 1 0 = 0 := by decide +kernel
      rw [a0, a1, b0]
      norm_num [two, OneStep.factors])
  obtain ⟨guess, hg, ht⟩ := h1 0 (by omega)
  have e0 : guess = ![2, 0] := by
    funext k
    fin_cases k
    · have := (hg 0).1 ⟨[], by simp [cubicTrafo]⟩
      simpa using this
    · have := (hg 1).2 (by rintro ⟨row, hr⟩; simp [cubicTrafo] at hr)
      simpa using this
  have hc := const_congr cubicTrafo ⟨OneStep.implicitEuler, 0, 1 - 0, .multiplyOperator0ByDT, 1⟩ (cubicTransient.spatial (1 / 100) 2) (cubicTransient.temporal 1 1)
    cubicTransient.trace (two ![0, 1] (out.2.1.mem 1)) (two ![0, 1] ![0, 1]) ⟨⟨0, 0, 0⟩, ⟨0, 0, 0⟩, 0, 0⟩ (euler_stages 1 (le_refl 1) (le_refl 1)).2.2 (fun s hs => by
      have : s = 0 := by have hs' : s < 1 := hs; omega
      rw [this]
      rfl)
  have h3 : |stageResidual cubicTrafo ⟨OneStep.implicitEuler, 0, 1 - 0, .multiplyOperator0ByDT, 1⟩ (cubicTransient.spatial (1 / 100) 2) (cubicTransient.temporal 1 1)
      (stageConst cubicTrafo ⟨OneStep.implicitEuler, 0, 1 - 0, .multiplyOperator0ByDT, 1⟩ (cubicTransient.spatial (1 / 100) 2) (cubicTransient.temporal 1 1)
        cubicTransient.trace (two ![0, 1] (out.2.1.mem 1)) ⟨⟨0, 0, 0⟩, ⟨0, 0, 0⟩, 0, 0⟩) cubicTransient.trace ![2, 0] 1| = 7 / 2 := by
    rw [hc]
    decide +kernel
  have h4 : tol 0 = tolerance cubicParams (7 / 2) := by
    rw [ht, e0, ← h3]
    norm_num
  rw [Finset.sum_range_one, h4] at h2
  simpa [OneStep.factors, tolerance] using h2

/-- A linear problem: `f(u) = 3 - u`, `j(u) = u - 1`. -/
def affinePar : NonlinearFEM.Param ℚ ℚ Unit 1 := ⟨fun _ u => 3 - u, fun _ u => u, fun _ _ => 1, fun _ => !![1], fun _ _ => 0, fun _ u => u - 1, fun _ => false⟩
/-- On the same cell. -/
def affineMesh : NonlinearFEM.Mesh ℚ ℚ Unit (Fin 2) 1 (N := 1) fun _ => 2 := { cubicMesh with par := fun _ => affinePar, boundary := [⟨exNonlinearFace, 0, affinePar⟩] }

theorem affineMesh_semilinear : Semilinear 2 affineMesh where
  weights := cubicMesh_semilinear.weights
  faceWeights F hF q hq := by
    obtain rfl := List.mem_singleton.mp hF
    obtain rfl := List.mem_singleton.mp hq
    norm_num [exNonlinearFace]
  identity _ _ _ := rfl
  faceIdentity F hF _ _ := by
    obtain rfl := List.mem_singleton.mp hF
    rfl
  diffusion _ _ _ _ := rfl
  convection _ _ _ _ := rfl
  source _ _ a b := by
    change (3 - a - (3 - b)) * (a - b) ≤ 0
    nlinarith [mul_self_nonneg (a - b)]
  outflow F hF _ a b := by
    obtain rfl := List.mem_singleton.mp hF
    change 0 ≤ (a - 1 - (b - 1)) * (a - b)
    nlinarith [mul_self_nonneg (a - b)]

theorem affineMesh_affine : AffineData affineMesh where
  source _ := ⟨fun _ => 3, fun _ => -1, fun _ u => by change 3 - u = 3 + -1 * u; ring⟩
  outflow F hF := by
    obtain rfl := List.mem_singleton.mp hF
    exact ⟨fun _ => -1, fun _ => 1, fun _ u => by change u - 1 = -1 + 1 * u; ring⟩

example (kept : Option (Option (Fin 2 → ℚ))) (x : Fin 2 → ℚ) :
    (Newton.apply (NewtonSolve.problem cubicTrafo true (fun _ => 0) (NonlinearFEM.meshPattern affineMesh) (NonlinearFEM.meshParts (1 / 100) 2 affineMesh)
      (fun r => ∑ k, |r k|) chosenReport fun _ _ => (false, 0, 0)) cubicParams kept x).2 = none :=
  (C250_linear (1 / 100) (by norm_num) 2 affineMesh affineMesh_semilinear affineMesh_affine cubicTrafo cubicTrafo_admissible cubic_rows cubicMesh_constrained 1 one_pos
    cubicMesh_coercive true (fun _ => 0) _ sum_abs_definite chosenReport chosenReport_solves (fun _ _ => (false, 0, 0)) cubicParams rfl (by decide +kernel)
    (by decide +kernel) (by intro n e b h; cases h; decide) (by decide) kept x).1

end Verif
