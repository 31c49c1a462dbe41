import Verif.Proofs.VectorMesh
import Verif.Props.FEMMesh
/-
C238: linear elasticity on a mesh. C239: the Stokes and Navier-Stokes equations on a mesh.
-/
namespace Verif
open LocalOp LocalOp.Spec ConstrainedSolve Constraints FEMMesh VectorMesh Tested

/-! ### C238 -/

section
open Elasticity
variable {K P Q I : Type} [Field K] [LinearOrder K] [IsStrictOrderedRing K] [Inhabited I] [DecidableEq I] {d N : Nat} {n : Fin N → Nat}

/-- **C238 (virtual work).** What the grid operator assembles, tested with a virtual displacement, is the work of the stresses minus the work of the volume
force. The boundary contributes nothing. -/
theorem C238_virtual_work (intorder : Int) (mesh : Mesh K P Q I d n) (x w : I → K) :
    form (meshParts intorder mesh) x w = mesh.work intorder x w - mesh.load intorder w :=
  elasticity_form intorder mesh x w

/-- **C238 (linear solver).** For a body that is held, the solver returns from any initial guess the only displacement in equilibrium with the Dirichlet values
of the guess. -/
theorem C238_solver [Fintype I] (intorder : Int) (mesh : Mesh K P Q I d n) (t : Trafo I K) (h : Admissible t) (hin : ConstrainedInCells t mesh)
    (hh : Held intorder t mesh) (symmetric : Bool) (ci0 : Nat → I) (solve : Assembly.Matrix I K → (I → K) → I → K) (hs : Exact solve) (x : I → K) :
    ∃ x', applyLinear t symmetric ci0 (meshPattern mesh) (meshParts intorder mesh) solve true x = some x' ∧ Equilibrium intorder t mesh x' ∧
      (∀ k, t.Dirichlet k → x' k = x k) ∧
      ∀ y, Equilibrium intorder t mesh y → (∀ k, t.Dirichlet k → y k = x k) → y = x' := by
  obtain ⟨x', h1, h2, h3, h4⟩ := C232_linear_solver t h symmetric ci0 (meshPattern mesh) (meshParts intorder mesh) (elasticity_fits intorder t mesh hin)
    _ _ (elasticity_affine intorder mesh) (elasticity_regular intorder t mesh hh) solve hs x
  exact ⟨x', h1, (elasticity_galerkin intorder t mesh x').mp h2, h3, fun y hy => h4 y ((elasticity_galerkin intorder t mesh y).mpr hy)⟩

/-- **C238 (minimal energy).** Among all displacements that satisfy the constraints and have the same Dirichlet values, the one in equilibrium has minimal
potential energy: stored energy minus work of the load (both doubled). -/
theorem C238_energy (intorder : Int) (mesh : Mesh K P Q I d n) (t : Trafo I K) (hh : Held intorder t mesh) (x y : I → K)
    (hx : Equilibrium intorder t mesh x) (hy : Conforming t y) (hd : ∀ k, t.Dirichlet k → y k = x k) :
    mesh.work intorder x x - 2 * mesh.load intorder x ≤ mesh.work intorder y y - 2 * mesh.load intorder y := by
  have h := C232_energy t (meshParts intorder mesh) _ _ (elasticity_affine intorder mesh)
    (fun x w => by rw [elasticity_bilinear, elasticity_bilinear, work_comm]) (fun w _ => by
      rw [elasticity_bilinear]; exact work_nonneg intorder t mesh hh w) x y ((elasticity_galerkin intorder t mesh x).mpr hx) hy hd
  unfold energy at h
  rw [elasticity_bilinear, elasticity_bilinear, elasticity_form, elasticity_form, work_zero, work_zero] at h
  linarith

/-- **C238 (reciprocity).** Betti's theorem: of two loads on the same body, the first does the same work on the displacement caused by the second as the second
on the displacement caused by the first. -/
theorem C238_reciprocity (intorder : Int) (mesh : Mesh K P Q I d n) (t : Trafo I K) (f g : Fin N → P → Fin d → K) (x y : I → K)
    (hx : Equilibrium intorder t { mesh with par := fun c => { mesh.par c with f := f c } } x) (hx0 : Homogeneous t x)
    (hy : Equilibrium intorder t { mesh with par := fun c => { mesh.par c with f := g c } } y) (hy0 : Homogeneous t y) :
    ({ mesh with par := fun c => { mesh.par c with f := f c } } : Mesh K P Q I d n).load intorder y =
      ({ mesh with par := fun c => { mesh.par c with f := g c } } : Mesh K P Q I d n).load intorder x := by
  rw [← hx.2 y hy0, ← hy.2 x hx0]
  exact work_comm intorder mesh x y

end

/-! A concrete case: a triangle with linear functions, held at two vertices and loaded. -/

def elGeo : CellGeo ℚ Unit 2 := ⟨(), 1 / 2, fun _ => 0, fun _ => 1, fun _ => !![1, 0; 0, 1], fun _ => [((), 1 / 2)]⟩
def elBasis : Basis ℚ Unit 2 3 := ⟨1, fun _ => ![1 / 3, 1 / 3, 1 / 3], fun _ => ![![-1, -1], ![1, 0], ![0, 1]]⟩
def elMesh : Elasticity.Mesh ℚ Unit Unit (Fin 6) 2 (N := 1) fun _ => 3 where
  geo _ := elGeo
  par _ := ⟨fun _ => 3, fun _ => 5, fun _ => ![9, 33], fun _ => false⟩
  fe _ := elBasis
  dof _ i := ![![0, 1, 2], ![3, 4, 5]] i.1 i.2
  boundary := []
def elTrafo : Trafo (Fin 6) ℚ := ⟨[(0, []), (1, []), (3, []), (4, [])], false⟩

theorem el_dirichlet (w : Fin 6 → ℚ) (h : Homogeneous elTrafo w) : w 0 = 0 ∧ w 1 = 0 ∧ w 3 = 0 ∧ w 4 = 0 :=
  ⟨h.2 0 (by unfold Trafo.Dirichlet elTrafo; simp), h.2 1 (by unfold Trafo.Dirichlet elTrafo; simp),
    h.2 3 (by unfold Trafo.Dirichlet elTrafo; simp), h.2 4 (by unfold Trafo.Dirichlet elTrafo; simp)⟩

theorem el_grad (w : Fin 6 → ℚ) (p : Unit) : elMesh.grad w 0 p = !![w 1 - w 0, w 2 - w 0; w 4 - w 3, w 5 - w 3] := by
  ext i j
  simp only [Elasticity.Mesh.grad, femGradient, elMesh, elGeo, elBasis, Matrix.of_apply]
  fin_cases i <;> fin_cases j <;> simp [Fin.sum_univ_three, Matrix.mulVec, dotProduct, Fin.sum_univ_two] <;> ring

theorem el_work (x w : Fin 6 → ℚ) (hx : Homogeneous elTrafo x) (hw : Homogeneous elTrafo w) :
    elMesh.work 0 x w = 3 / 2 * (x 2 * w 2) + 11 / 2 * (x 5 * w 5) := by
  obtain ⟨x0, x1, x3, x4⟩ := el_dirichlet x hx
  obtain ⟨w0, w1, w3, w4⟩ := el_dirichlet w hw
  unfold Elasticity.Mesh.work
  rw [Fin.sum_univ_one]
  simp only [el_grad, quadrature]
  simp [elMesh, elGeo, elasticDensity, strain, contract, Fin.sum_univ_two, Matrix.trace, x0, x1, x3, x4, w0, w1, w3, w4]
  ring

theorem el_load (w : Fin 6 → ℚ) (hw : Homogeneous elTrafo w) : elMesh.load 0 w = 3 / 2 * w 2 + 11 / 2 * w 5 := by
  obtain ⟨w0, w1, w3, w4⟩ := el_dirichlet w hw
  unfold Elasticity.Mesh.load
  rw [Fin.sum_univ_one]
  simp [Elasticity.Mesh.value, femFunction, quadrature, elMesh, elGeo, elBasis, dotProduct, Fin.sum_univ_two, Fin.sum_univ_three, w0, w1, w3, w4]
  ring

theorem elMesh_held : Elasticity.Held 0 elTrafo elMesh where
  weights _ q hq := by
    rw [List.mem_singleton.mp hq]
    norm_num [elMesh, elGeo]
  mu _ _ := by norm_num [elMesh]
  lambda _ _ := by norm_num [elMesh]
  korn w hw h k := by
    rw [el_work w w hw hw] at h
    obtain ⟨w0, w1, w3, w4⟩ := el_dirichlet w hw
    have s2 := mul_self_nonneg (w 2)
    have s5 := mul_self_nonneg (w 5)
    have e2 := mul_self_eq_zero.mp (show w 2 * w 2 = 0 by linarith)
    have e5 := mul_self_eq_zero.mp (show w 5 * w 5 = 0 by linarith)
    fin_cases k <;> assumption

theorem elTrafo_empty {k : Fin 6} {row : List (Fin 6 × ℚ)} (h : (k, row) ∈ elTrafo.rows) : row = [] := by
  simp only [elTrafo, List.mem_cons, Prod.mk.injEq, List.not_mem_nil, or_false] at h
  rcases h with h | h | h | h <;> exact h.2

theorem elTrafo_admissible : Admissible elTrafo where
  keys := by decide
  flag := by
    intro k row hm hn
    exact absurd (elTrafo_empty hm) hn
  chains := by
    intro k row hm e he
    rw [elTrafo_empty hm] at he
    exact absurd he (by simp)

theorem el_used : Elasticity.ConstrainedInCells elTrafo elMesh := by
  intro k _
  fin_cases k
  · exact ⟨0, (0, 0), rfl⟩
  · exact ⟨0, (0, 1), rfl⟩
  · exact ⟨0, (0, 2), rfl⟩
  · exact ⟨0, (1, 0), rfl⟩
  · exact ⟨0, (1, 1), rfl⟩
  · exact ⟨0, (1, 2), rfl⟩

/-- The theorems apply; the free vertex moves by (1,1). -/
example (symmetric : Bool) (ci0 : Nat → Fin 6) :
    applyLinear elTrafo symmetric ci0 (Elasticity.meshPattern elMesh) (Elasticity.meshParts 0 elMesh) chosen true (fun _ => 0) =
      some ![0, 0, 1, 0, 0, 1] := by
  obtain ⟨x', h1, h2, h3, h4⟩ := C238_solver 0 elMesh elTrafo elTrafo_admissible
    el_used elMesh_held symmetric ci0 chosen chosen_exact fun _ => 0
  have hd : ∀ k, elTrafo.Dirichlet k → (![0, 0, 1, 0, 0, 1] : Fin 6 → ℚ) k = 0 := by
    intro k hk
    simp only [elTrafo, Trafo.Dirichlet, List.mem_cons, Prod.mk.injEq, List.not_mem_nil, or_false] at hk
    rcases hk with ⟨rfl, -⟩ | ⟨rfl, -⟩ | ⟨rfl, -⟩ | ⟨rfl, -⟩ <;> rfl
  have hc : Conforming elTrafo (![0, 0, 1, 0, 0, 1] : Fin 6 → ℚ) := fun k row hm hn => absurd (elTrafo_empty hm) hn
  rw [h1, h4 ![0, 0, 1, 0, 0, 1] ⟨hc, fun w hw => ?_⟩ hd]
  rw [el_work _ w ⟨hc, hd⟩ hw, el_load w hw]
  change 3 / 2 * (1 * w 2) + 11 / 2 * (1 * w 5) = _
  ring

/-! ### C239 -/

section
open TaylorHood
variable {K P Q I : Type} [Field K] [LinearOrder K] [IsStrictOrderedRing K] [Inhabited I] [DecidableEq I] {d N : Nat} {n m : Fin N → Nat}

omit [LinearOrder K] [IsStrictOrderedRing K] in
/-- **C239 (weak form).** What the grid operator assembles, tested with velocity and pressure, is the weak form of the Navier-Stokes equations. -/
theorem C239_weak_form (s : Int) (mesh : Mesh K P Q I d n m) (x w : I → K) : form (meshParts s mesh) x w = weakForm s mesh x w :=
  flow_form s mesh x w

omit [LinearOrder K] [IsStrictOrderedRing K] in
/-- **C239 (residual).** For the nonlinear equations too, the residual of the grid operator is zero exactly if the weak form vanishes for all test
functions. -/
theorem C239_residual [Fintype I] (s : Int) (mesh : Mesh K P Q I d n m) (t : Trafo I K) (h : Admissible t) (x : I → K) :
    (∀ r, residual t (meshParts s mesh) x r = 0) ↔ ∀ w, Homogeneous t w → weakForm s mesh x w = 0 := by
  rw [C232_residual t h]
  simp only [flow_form]

omit [IsStrictOrderedRing K] in
/-- **C239 (linear solver).** For a stable Stokes problem, the solver returns from any initial guess the only solution with the Dirichlet values of the
guess. -/
theorem C239_solver [Fintype I] (s : Int) (mesh : Mesh K P Q I d n m) (t : Trafo I K) (h : Admissible t) (pressureDof : I → Bool)
    (hsep : Separated t mesh pressureDof) (hst : StableStokes s t mesh pressureDof) (symmetric : Bool) (ci0 : Nat → I)
    (solve : Assembly.Matrix I K → (I → K) → I → K) (hs : Exact solve) (x : I → K) :
    ∃ x', applyLinear t symmetric ci0 (meshPattern mesh) (meshParts s mesh) solve true x = some x' ∧ Solution s t mesh x' ∧
      (∀ k, t.Dirichlet k → x' k = x k) ∧
      ∀ y, Solution s t mesh y → (∀ k, t.Dirichlet k → y k = x k) → y = x' := by
  obtain ⟨x', h1, h2, h3, h4⟩ := C232_linear_solver t h symmetric ci0 (meshPattern mesh) (meshParts s mesh) (flow_fits s t mesh hsep.used)
    _ _ (stokes_affine s mesh hst.stokes) (stokes_regular t mesh pressureDof hsep s hst) solve hs x
  exact ⟨x', h1, (flow_galerkin t mesh s x').mp h2, h3, fun y hy => h4 y ((flow_galerkin t mesh s y).mpr hy)⟩

omit [LinearOrder K] [IsStrictOrderedRing K] in
/-- The weak form tested with a pressure. -/
theorem flow_mass_form (s : Int) (mesh : Mesh K P Q I d n m) (t : Trafo I K) (pressureDof : I → Bool) (hsep : Separated t mesh pressureDof) (x w : I → K) :
    weakForm s mesh x (alone pressureDof w) =
      ∑ c, quadrature ((mesh.geo c).quadratureRule (massOrder d (mesh.v c).order (mesh.isSimplex c) s)) (mesh.geo c).integrationElement (fun p =>
        (mesh.par c).g2 p * mesh.pressure w c p) - mesh.pressureWork s w x := by
  unfold weakForm
  have ht : mesh.traction s (alone pressureDof w) = 0 := by
    unfold Mesh.traction
    refine List.sum_eq_zero fun v hv => ?_
    obtain ⟨F, -, rfl⟩ := List.mem_map.mp hv
    refine (quadrature_congr _ _ _ _ fun q _ => ?_).trans (quadrature_zero' _ _)
    rw [velocity_alone t mesh pressureDof hsep]
    simp
  have hso : mesh.sources s (alone pressureDof w) = ∑ c, quadrature ((mesh.geo c).quadratureRule (massOrder d (mesh.v c).order (mesh.isSimplex c) s))
      (mesh.geo c).integrationElement fun p => (mesh.par c).g2 p * mesh.pressure w c p := by
    unfold Mesh.sources
    refine Finset.sum_congr rfl fun c _ => quadrature_congr _ _ _ _ fun q _ => ?_
    rw [velocity_alone t mesh pressureDof hsep, pressure_alone t mesh pressureDof hsep]
    simp
  have hv : ∑ c, mesh.integral s c (fun p => flowDensity (mesh.par c).navier (mesh.par c).fullTensor ((mesh.par c).mu p) ((mesh.par c).rho p)
      (mesh.grad x c p) (mesh.velocity x c p) (mesh.pressure x c p) (mesh.grad (alone pressureDof w) c p) (mesh.velocity (alone pressureDof w) c p)
      (mesh.pressure (alone pressureDof w) c p)) = -mesh.pressureWork s w x := by
    unfold Mesh.pressureWork
    rw [← Finset.sum_neg_distrib]
    refine Finset.sum_congr rfl fun c _ => ?_
    unfold Mesh.integral
    rw [← quadrature_neg']
    refine quadrature_congr _ _ _ _ fun q _ => ?_
    unfold flowDensity
    rw [velocity_alone t mesh pressureDof hsep, pressure_alone t mesh pressureDof hsep, grad_alone t mesh pressureDof hsep]
    simp [contract]
  rw [hv, ht, hso]
  ring

omit [LinearOrder K] [IsStrictOrderedRing K] in
/-- **C239 (mass).** Every solution of the Stokes or Navier-Stokes equations conserves mass in the weak sense: the integral of `q div u` is that of `g₂ q` for all
test pressures. -/
theorem C239_mass (s : Int) (mesh : Mesh K P Q I d n m) (t : Trafo I K) (pressureDof : I → Bool) (hsep : Separated t mesh pressureDof) (x : I → K)
    (hx : Solution s t mesh x) (w : I → K) (hw : Homogeneous t w) :
    mesh.pressureWork s w x =
      ∑ c, quadrature ((mesh.geo c).quadratureRule (massOrder d (mesh.v c).order (mesh.isSimplex c) s)) (mesh.geo c).integrationElement fun p =>
        (mesh.par c).g2 p * mesh.pressure w c p := by
  have h1 := hx.2 _ (homogeneous_alone t pressureDof hsep.rows w hw)
  rw [flow_mass_form s mesh t pressureDof hsep] at h1
  linear_combination -h1

omit [LinearOrder K] [IsStrictOrderedRing K] in
/-- **C239 (power).** In a Stokes flow without mass sources that vanishes on the Dirichlet boundary, the dissipated power is that of the forces: the
integral of `f·u` over the domain minus that of `j·u` over the Neumann boundary. -/
theorem C239_power (s : Int) (mesh : Mesh K P Q I d n m) (t : Trafo I K) (pressureDof : I → Bool) (hsep : Separated t mesh pressureDof)
    (hn : ∀ c, (mesh.par c).navier = false) (hg : ∀ c p, (mesh.par c).g2 p = 0) (x : I → K) (hx : Solution s t mesh x) (hx0 : Homogeneous t x) :
    mesh.dissipation s x =
      (∑ c, quadrature ((mesh.geo c).quadratureRule (massOrder d (mesh.v c).order (mesh.isSimplex c) s)) (mesh.geo c).integrationElement fun p =>
        (mesh.par c).f p ⬝ᵥ mesh.velocity x c p) - mesh.traction s x := by
  have h1 := hx.2 x hx0
  have h2 : ConstrainedSolve.bilinear (meshParts s mesh) x x = mesh.dissipation s x - mesh.pressureWork s x x - mesh.pressureWork s x x :=
    stokes_bilinear s mesh hn x x
  have h3 := C239_mass s mesh t pressureDof hsep x hx x hx0
  have h4 : weakForm s mesh (fun _ => 0) x = mesh.sources s x + mesh.traction s x := by
    unfold weakForm
    rw [add_assoc, add_eq_right]
    refine Finset.sum_eq_zero fun c _ => ?_
    unfold Mesh.integral
    refine (quadrature_congr _ _ _ _ fun q _ => ?_).trans (quadrature_zero' _ _)
    unfold flowDensity
    have e1 : mesh.grad (fun _ => 0) c q.1 = 0 := by ext i j; simp [Mesh.grad, femGradient]
    have e2 : mesh.pressure (fun _ => 0) c q.1 = 0 := by simp [Mesh.pressure, femScalar]
    rw [e1, e2, hn c]
    cases (mesh.par c).fullTensor <;> simp [contract, viscousStress]
  have h5 : mesh.sources s x = -∑ c, quadrature ((mesh.geo c).quadratureRule (massOrder d (mesh.v c).order (mesh.isSimplex c) s))
      (mesh.geo c).integrationElement fun p => (mesh.par c).f p ⬝ᵥ mesh.velocity x c p := by
    unfold Mesh.sources
    rw [← Finset.sum_neg_distrib]
    refine Finset.sum_congr rfl fun c _ => ?_
    rw [← quadrature_neg']
    refine quadrature_congr _ _ _ _ fun q _ => ?_
    rw [hg]
    ring
  have h6 : mesh.pressureWork s x x = 0 := by
    rw [h3]
    refine Finset.sum_eq_zero fun c _ => ?_
    refine (quadrature_congr _ _ _ _ fun q _ => ?_).trans (quadrature_zero' _ _)
    rw [hg, zero_mul]
  unfold ConstrainedSolve.bilinear at h2
  rw [flow_form, flow_form, h1, h4, h5, h6] at h2
  linear_combination -h2

end

/-! A concrete case: a channel in one dimension with two cells, linear velocities and constant pressures, with given inflow on the left, a force and a
traction on the right. -/

def stMesh : TaylorHood.Mesh ℚ ℚ Unit (Fin 5) 1 (N := 2) (fun _ => 2) fun _ => 1 where
  isSimplex _ := true
  geo _ := cdGeo
  par _ := ⟨false, true, fun _ => 3, fun _ => 1, fun _ _ => 5, fun _ => 0, fun _ => .doNothing, fun _ => 0⟩
  v _ := cdBasis
  p _ := ⟨0, fun _ => ![1], fun _ => ![0]⟩
  dof c i := match i with
    | .inl i => ![![0, 1], ![1, 2]] c i.2
    | .inr _ => ![3, 4] c
  boundary := [⟨0, dgLeft, true, fun _ => .velocityDirichlet, fun _ => 0⟩, ⟨1, cdFace, true, fun _ => .stressNeumann, fun _ _ => 2⟩]

def stTrafo : Trafo (Fin 5) ℚ := ⟨[(0, [])], false⟩
def stPressure (k : Fin 5) : Bool := 3 ≤ k.val

theorem stTrafo_empty {k : Fin 5} {row : List (Fin 5 × ℚ)} (h : (k, row) ∈ stTrafo.rows) : k = 0 ∧ row = [] := by
  simpa only [stTrafo, List.mem_singleton, Prod.mk.injEq] using h

theorem st_dirichlet (w : Fin 5 → ℚ) : Homogeneous stTrafo w ↔ w 0 = 0 := by
  refine ⟨fun h => h.2 0 (by unfold Trafo.Dirichlet stTrafo; simp), fun h => ⟨fun k row hm hn => absurd (stTrafo_empty hm).2 hn, fun k hk => ?_⟩⟩
  rw [(stTrafo_empty hk).1, h]

theorem stTrafo_admissible : Admissible stTrafo where
  keys := by decide
  flag := by
    intro k row hm hn
    exact absurd (stTrafo_empty hm).2 hn
  chains := by
    intro k row hm e he
    rw [(stTrafo_empty hm).2] at he
    exact absurd he (by simp)

theorem stMesh_separated : TaylorHood.Separated stTrafo stMesh stPressure where
  velocity := by decide
  pressure := by decide
  used k := by
    fin_cases k
    · exact ⟨0, .inl (0, 0), rfl⟩
    · exact ⟨0, .inl (0, 1), rfl⟩
    · exact ⟨1, .inl (0, 1), rfl⟩
    · exact ⟨0, .inr 0, rfl⟩
    · exact ⟨1, .inr 0, rfl⟩
  rows k row hm e he := by
    rw [(stTrafo_empty hm).2] at he
    exact absurd he (by simp)

theorem st_grad (w : Fin 5 → ℚ) (c : Fin 2) (p : ℚ) : stMesh.grad w c p = !![2 * (![w 1 - w 0, w 2 - w 1] c)] := by
  ext i j
  simp only [TaylorHood.Mesh.grad, femGradient, stMesh, cdGeo, cdBasis, Matrix.of_apply]
  fin_cases c <;> simp [Fin.sum_univ_two, Matrix.mulVec, dotProduct] <;> ring

theorem st_pressure (w : Fin 5 → ℚ) (c : Fin 2) (p : ℚ) : stMesh.pressure w c p = ![w 3, w 4] c := by
  fin_cases c <;> simp [TaylorHood.Mesh.pressure, femScalar, stMesh]

theorem st_work (x w : Fin 5 → ℚ) : stMesh.pressureWork 0 x w = x 3 * (w 1 - w 0) + x 4 * (w 2 - w 1) := by
  unfold TaylorHood.Mesh.pressureWork
  rw [Fin.sum_univ_two]
  simp only [TaylorHood.Mesh.integral, st_grad, st_pressure, quadrature]
  simp [stMesh, cdGeo, Matrix.trace]
  ring

theorem st_viscous (x w : Fin 5 → ℚ) : ∑ c, stMesh.integral 0 c (fun p => contract (viscousStress (stMesh.par c).fullTensor ((stMesh.par c).mu p)
    (stMesh.grad x c p)) (stMesh.grad w c p)) = 12 * ((x 1 - x 0) * (w 1 - w 0) + (x 2 - x 1) * (w 2 - w 1)) := by
  rw [Fin.sum_univ_two]
  simp only [TaylorHood.Mesh.integral, st_grad, quadrature]
  simp [stMesh, cdGeo, contract, viscousStress]
  ring

theorem stMesh_stable : TaylorHood.StableStokes 0 stTrafo stMesh stPressure where
  stokes _ := rfl
  weights c q hq := by
    have hq' : q ∈ [((1 / 4 : ℚ), (1 / 2 : ℚ)), (3 / 4, 1 / 2)] := hq
    change 0 ≤ q.2 * (1 / 2)
    fin_cases hq' <;> norm_num
  mu _ _ := by norm_num [stMesh]
  korn w hw h k hk := by
    have h0 := (st_dirichlet w).mp hw
    have hv := (st_viscous w w).symm.trans h
    have s1 := mul_self_nonneg (w 1 - w 0)
    have s2 := mul_self_nonneg (w 2 - w 1)
    have e1 := mul_self_eq_zero.mp (show (w 1 - w 0) * (w 1 - w 0) = 0 by linarith)
    have e2 := mul_self_eq_zero.mp (show (w 2 - w 1) * (w 2 - w 1) = 0 by linarith)
    fin_cases k <;> first | exact absurd hk (by decide) | (simp only [Fin.zero_eta, Fin.mk_one, Fin.reduceFinMk]; linarith)
  infSup x hx h k hk := by
    have h1 := h ![0, 1, 1, 0, 0] ((st_dirichlet _).mpr rfl)
    have h2 := h ![0, 0, 1, 0, 0] ((st_dirichlet _).mpr rfl)
    rw [st_work] at h1 h2
    have h1' : x 3 * (1 - 0) + x 4 * (1 - 1) = 0 := h1
    have h2' : x 3 * (0 - 0) + x 4 * (1 - 0) = 0 := h2
    fin_cases k <;> first | exact absurd hk (by decide) | (simp only [Fin.reduceFinMk]; linarith)

theorem st_weak (x w : Fin 5 → ℚ) : TaylorHood.weakForm 0 stMesh x w =
    12 * ((x 1 - x 0) * (w 1 - w 0) + (x 2 - x 1) * (w 2 - w 1)) - (x 3 * (w 1 - w 0) + x 4 * (w 2 - w 1)) -
      (w 3 * (x 1 - x 0) + w 4 * (x 2 - x 1)) - 5 * (w 0 / 4 + w 1 / 2 + w 2 / 4) + 2 * w 2 := by
  have hb := stokes_bilinear 0 stMesh (fun _ => rfl) x w
  unfold ConstrainedSolve.bilinear at hb
  rw [flow_form, flow_form, st_viscous, st_work, st_work] at hb
  have h0 : TaylorHood.weakForm 0 stMesh (fun _ => 0) w = -(5 * (w 0 / 4 + w 1 / 2 + w 2 / 4)) + 2 * w 2 := by
    have hs : stMesh.sources 0 w = -(5 * (w 0 / 4 + w 1 / 2 + w 2 / 4)) := by
      unfold TaylorHood.Mesh.sources
      rw [Fin.sum_univ_two]
      simp [quadrature, stMesh, cdGeo, cdBasis, TaylorHood.Mesh.velocity, femFunction, Fin.sum_univ_two, dotProduct]
      ring
    have ht : stMesh.traction 0 w = 2 * w 2 := by
      unfold TaylorHood.Mesh.traction
      simp [quadrature, stMesh, cdFace, dgLeft, cdBasis, TaylorHood.Mesh.velocity, femFunction, Fin.sum_univ_two, dotProduct]
    unfold TaylorHood.weakForm
    rw [hs, ht]
    have hz : ∑ c, stMesh.integral 0 c (fun p => flowDensity (stMesh.par c).navier (stMesh.par c).fullTensor ((stMesh.par c).mu p) ((stMesh.par c).rho p)
        (stMesh.grad (fun _ => 0) c p) (stMesh.velocity (fun _ => 0) c p) (stMesh.pressure (fun _ => 0) c p) (stMesh.grad w c p)
        (stMesh.velocity w c p) (stMesh.pressure w c p)) = 0 := by
      rw [Fin.sum_univ_two]
      simp only [TaylorHood.Mesh.integral, st_grad, st_pressure, quadrature]
      simp [stMesh, cdGeo, flowDensity, contract, viscousStress, Matrix.trace]
    rw [hz]
    ring
  rw [h0] at hb
  linear_combination hb

/-- The theorems apply: with the inflow 7 the velocity is 7 everywhere, and the pressures are -7/4 and 3/4. -/
example (symmetric : Bool) (ci0 : Nat → Fin 5) (guess : Fin 5 → ℚ) (h : guess 0 = 7) :
    applyLinear stTrafo symmetric ci0 (TaylorHood.meshPattern stMesh) (TaylorHood.meshParts 0 stMesh) chosen true guess =
      some ![7, 7, 7, -7 / 4, 3 / 4] := by
  obtain ⟨x', h1, h2, h3, h4⟩ := C239_solver 0 stMesh stTrafo stTrafo_admissible stPressure stMesh_separated stMesh_stable symmetric ci0 chosen
    chosen_exact guess
  rw [h1, h4 ![7, 7, 7, -7 / 4, 3 / 4] ⟨fun k row hm hn => absurd (stTrafo_empty hm).2 hn, fun w hw => ?_⟩ fun k hk => ?_]
  · rw [st_weak, (st_dirichlet w).mp hw]
    change 12 * ((7 - 7) * (w 1 - 0) + (7 - 7) * (w 2 - w 1)) - (-7 / 4 * (w 1 - 0) + 3 / 4 * (w 2 - w 1)) -
      (w 3 * (7 - 7) + w 4 * (7 - 7)) - 5 * (0 / 4 + w 1 / 2 + w 2 / 4) + 2 * w 2 = 0
    ring
  · rw [(stTrafo_empty hk).1, h]
    rfl

/-- Without inflow the hypotheses of `C239_power` hold for the solution (0, 0, 0, -7/4, 3/4). -/
example : TaylorHood.Solution 0 stTrafo stMesh ![0, 0, 0, -7 / 4, 3 / 4] ∧ Homogeneous stTrafo ![0, 0, 0, -7 / 4, 3 / 4] := by
  refine ⟨⟨fun k row hm hn => absurd (stTrafo_empty hm).2 hn, fun w hw => ?_⟩, (st_dirichlet _).mpr rfl⟩
  rw [st_weak, (st_dirichlet w).mp hw]
  change 12 * ((0 - 0) * (w 1 - 0) + (0 - 0) * (w 2 - w 1)) - (-7 / 4 * (w 1 - 0) + 3 / 4 * (w 2 - w 1)) -
    (w 3 * (0 - 0) + w 4 * (0 - 0)) - 5 * (0 / 4 + w 1 / 2 + w 2 / 4) + 2 * w 2 = 0
  ring

end Verif
