import Verif.Proofs.FEMMesh
import Verif.Props.ConstrainedSolve
import Verif.Props.DGMesh
/-
C237: the conforming finite element method for the convection-diffusion equation, from the local operator to the solution.
-/
namespace Verif
open LocalOp LocalOp.Spec LocalOp.FEM ConstrainedSolve Constraints FEMMesh

section
variable {K P Q I : Type} [Field K] [LinearOrder K] [IsStrictOrderedRing K] [Inhabited I] [DecidableEq I] {d N : Nat} {n : Fin N → Nat}

omit [IsStrictOrderedRing K] in
/-- **C237 (weak form).** What the grid operator assembles from the local operator, tested with a function, is the weak form of the equation: for any
coefficients, boundary conditions and quadrature. -/
theorem C237_weak_form (add : Int) (mesh : Mesh K P Q I d n) (x w : I → K) : form (meshParts add mesh) x w = weakForm add mesh x w :=
  form_weak add mesh x w

omit [IsStrictOrderedRing K] in
/-- **C237 (residual).** The residual of the grid operator is zero exactly if the weak form vanishes for all test functions. -/
theorem C237_residual [Fintype I] (add : Int) (mesh : Mesh K P Q I d n) (t : Trafo I K) (h : Admissible t) (x : I → K) :
    (∀ r, residual t (meshParts add mesh) x r = 0) ↔ ∀ w, Homogeneous t w → weakForm add mesh x w = 0 := by
  rw [C232_residual t h]
  simp only [form_weak]

/-- **C237 (coercivity).** For an elliptic problem with incompressible flow that does not enter through outflow or leave through Neumann boundaries, the
bilinear form is at least the energy. -/
theorem C237_coercive (add : Int) (mesh : Mesh K P Q I d n) (t : Trafo I K) (he : Elliptic add t mesh) (hb : Incompressible add t mesh) (w : I → K)
    (hw : Homogeneous t w) : meshEnergy add mesh w ≤ weakForm add mesh w w - weakForm add mesh (fun _ => 0) w := by
  have := coercive add t mesh he.toDissipative hb w hw
  unfold bilinear at this
  rwa [form_weak, form_weak] at this

/-- **C237 (linear solver).** `StationaryLinearProblemSolver` with the finite element operator, hanging nodes included: from any initial guess it returns the
finite element solution with the Dirichlet values of the guess. There is one, and only one. -/
theorem C237_solver [Fintype I] (add : Int) (mesh : Mesh K P Q I d n) (t : Trafo I K) (h : Admissible t) (hin : ConstrainedInCells t mesh)
    (he : Elliptic add t mesh) (hb : Incompressible add t mesh) (symmetric : Bool) (ci0 : Nat → I)
    (solve : Assembly.Matrix I K → (I → K) → I → K) (hs : Exact solve) (x : I → K) :
    ∃ x', applyLinear t symmetric ci0 (meshPattern mesh) (meshParts add mesh) solve true x = some x' ∧ Solution add t mesh x' ∧
      (∀ k, t.Dirichlet k → x' k = x k) ∧
      ∀ y, Solution add t mesh y → (∀ k, t.Dirichlet k → y k = x k) → y = x' := by
  obtain ⟨x', h1, h2, h3, h4⟩ := C232_linear_solver t h symmetric ci0 (meshPattern mesh) (meshParts add mesh) (pattern_fits add t mesh hin) _ _
    (parts_affine add mesh he.conditions) (regular add t mesh he hb) solve hs x
  exact ⟨x', h1, (galerkin_iff add t mesh x').mp h2, h3, fun y hy => h4 y ((galerkin_iff add t mesh y).mpr hy)⟩

/-- **C237 (Newton's method).** One undamped step of Newton's method returns the same solution. -/
theorem C237_newton [Fintype I] (add : Int) (mesh : Mesh K P Q I d n) (t : Trafo I K) (h : Admissible t) (hin : ConstrainedInCells t mesh)
    (he : Elliptic add t mesh) (hb : Incompressible add t mesh) (symmetric : Bool) (ci0 : Nat → I)
    (solve : Assembly.Matrix I K → (I → K) → I → K) (hs : Exact solve) (reassembled : Bool) (x : I → K) :
    ∃ m, jacobian t symmetric ci0 (meshPattern mesh) (meshParts add mesh) (interpolate t x) = some m ∧
      let x' := iterate t [(reassembled, 1, solve m (residual t (meshParts add mesh) (interpolate t x)))] x
      Solution add t mesh x' ∧ (∀ k, t.Dirichlet k → x' k = x k) ∧
      applyLinear t symmetric ci0 (meshPattern mesh) (meshParts add mesh) solve true x = some x' := by
  obtain ⟨m, h1, h2, h3⟩ := C232_newton_step t h symmetric ci0 (meshPattern mesh) (meshParts add mesh) (pattern_fits add t mesh hin) _ _
    (parts_affine add mesh he.conditions) (regular add t mesh he hb) solve hs reassembled x
  obtain ⟨x', h4, -, -, h5⟩ := C237_solver add mesh t h hin he hb symmetric ci0 solve hs x
  refine ⟨m, h1, (galerkin_iff add t mesh _).mp h2, h3, ?_⟩
  rw [h4, h5 _ ((galerkin_iff add t mesh _).mp h2) h3]

/-- **C237 (energy).** Without convection and with a symmetric diffusion tensor the solution minimises the potential energy among all functions that satisfy
the constraints and have the same Dirichlet values. -/
theorem C237_energy (add : Int) (mesh : Mesh K P Q I d n) (t : Trafo I K) (he : Elliptic add t mesh) (hb : ∀ c p, (mesh.par c).b p = 0)
    (hA : ∀ c p, ((mesh.par c).A p).transpose = (mesh.par c).A p) (x y : I → K) (hx : Solution add t mesh x) (hy : Conforming t y)
    (hd : ∀ k, t.Dirichlet k → y k = x k) : potential add mesh x ≤ potential add mesh y := by
  rw [← energy_potential add mesh hb, ← energy_potential add mesh hb]
  refine C232_energy t (meshParts add mesh) _ _ (parts_affine add mesh he.conditions) (bilinear_symm add mesh hb hA) (fun w _ => ?_) x y
    ((galerkin_iff add t mesh x).mpr hx) hy hd
  have h0 := energy_nonneg add mesh he.toDissipative w
  have h1 : bilinear (meshParts add mesh) w w = meshEnergy add mesh w := by
    rw [bilinear_eq]
    have h2 : ∀ l : List (DG.BoundaryFace K P Q d N), (l.map fun F => faceBilinear add mesh F w w).sum = 0 := by
      intro l
      refine List.sum_eq_zero fun v hv => ?_
      obtain ⟨F, -, rfl⟩ := List.mem_map.mp hv
      unfold faceBilinear integrateFace
      refine List.sum_eq_zero fun v hv => ?_
      obtain ⟨q, -, rfl⟩ := List.mem_map.mp hv
      unfold faceFlux
      simp [hb]
    rw [h2, add_zero]
    unfold meshEnergy volumeForm
    refine Finset.sum_congr rfl fun c _ => integrate_congr _ _ _ _ fun q _ => ?_
    simp only [hb, zero_dotProduct, mul_zero, sub_zero]
    ring
  rw [h1]
  exact h0

end

/-! A concrete case: the unit interval with two cells of linear functions, diffusion 3, velocity 1, reaction 2, source 5, a Dirichlet boundary on the left and an
outflow boundary on the right. -/

def femMesh : Mesh ℚ ℚ Unit (Fin 3) 1 (N := 2) fun _ => 2 where
  geo _ := cdGeo
  par _ := cdPar
  lfs _ := cdBasis
  dof c i := ![![0, 1], ![1, 2]] c i
  boundary := [⟨dgLeft, 0, cdFacePar .dirichlet⟩, ⟨cdFace, 1, cdFacePar .outflow⟩]

def femTrafo : Trafo (Fin 3) ℚ := ⟨[(0, [])], false⟩

theorem fem_dirichlet (w : Fin 3 → ℚ) (h : Homogeneous femTrafo w) : w 0 = 0 := h.2 0 (by unfold Trafo.Dirichlet femTrafo; simp)

theorem fem_tensor (p : ℚ) : tensor cdGeo cdPar p = fun _ _ => 3 := rfl

theorem femMesh_elliptic : Elliptic 0 femTrafo femMesh where
  weights _ := by
    intro q hq
    have hq' : q ∈ [((1 / 4 : ℚ), (1 / 2 : ℚ)), (3 / 4, 1 / 2)] := hq
    change 0 ≤ q.2 * (1 / 2)
    fin_cases hq' <;> norm_num
  faceWeights F hF := by
    intro q hq
    rcases List.mem_pair.mp hF with rfl | rfl <;> rw [List.mem_singleton.mp hq] <;> norm_num [dgLeft, cdFace]
  diffusion c _ v := by
    have : Matrix.mulVec (fun _ _ => (3 : ℚ)) v ⬝ᵥ v = 3 * (v 0 * v 0) := by
      simp [Matrix.mulVec, dotProduct]
      ring
    change 0 ≤ Matrix.mulVec (fun _ _ => (3 : ℚ)) v ⬝ᵥ v
    rw [this]
    exact mul_nonneg (by norm_num) (mul_self_nonneg _)
  reaction _ _ := by norm_num [femMesh, cdPar]
  conditions F hF := by
    rcases List.mem_pair.mp hF with rfl | rfl <;> decide
  definite w hw h k := by
    have h0 := fem_dirichlet w hw
    simp only [meshEnergy, integrate, femMesh, fem_tensor] at h
    simp only [Mesh.onCell, gradient, value, cdGeo, cdBasis, cdPar,
      List.map_cons, List.map_nil, List.sum_cons, List.sum_nil, Fin.sum_univ_two] at h
    norm_num [Matrix.mulVec, dotProduct, Fin.sum_univ_two] at h
    rw [h0] at h
    have s1 := sq_nonneg (w 1)
    have s2 := sq_nonneg (w 2 - w 1)
    have s3 := sq_nonneg (w 1 * (3 / 4) + w 2 * (1 / 4))
    have s4 := sq_nonneg (w 1 * (1 / 4) + w 2 * (3 / 4))
    have z1 : w 1 ^ 2 = 0 := le_antisymm (by nlinarith) s1
    have z2 : (w 2 - w 1) ^ 2 = 0 := le_antisymm (by nlinarith) s2
    have e1 := pow_eq_zero_iff two_ne_zero |>.mp z1
    have e2 := pow_eq_zero_iff two_ne_zero |>.mp z2
    fin_cases k <;> simp only [Fin.zero_eta, Fin.mk_one, Fin.reduceFinMk] <;> linarith

theorem femMesh_incompressible : Incompressible 0 femTrafo femMesh where
  divergence w hw := by
    have h0 := fem_dirichlet w hw
    simp only [Mesh.onCell, integrateFace, integrate, gradient, value, faceFlux, femMesh, dgLeft, cdFace, cdGeo, cdBasis, cdPar,
      List.map_cons, List.map_nil, List.sum_cons, List.sum_nil, Fin.sum_univ_two]
    norm_num [Matrix.mulVec, dotProduct, Fin.sum_univ_two]
    rw [h0]
    ring
  boundary F hF q hq := by
    rcases List.mem_pair.mp hF with rfl | rfl
    · intro w hw
      have h0 := fem_dirichlet w hw
      simp [value, Mesh.onCell, femMesh, cdBasis, dgLeft, h0]
    · change 0 ≤ faceFlux femMesh ⟨cdFace, 1, cdFacePar .outflow⟩ q.1
      norm_num [faceFlux, femMesh, cdPar, cdFace, dotProduct]

theorem femTrafo_admissible : Admissible femTrafo where
  keys := by decide
  flag := by
    intro h k row hm
    simp [femTrafo] at *
    tauto
  chains := by
    intro k row hm e he
    simp only [femTrafo, List.mem_singleton, Prod.mk.injEq] at hm
    rw [hm.2] at he
    exact absurd he (by simp)

theorem femMesh_constrained : ConstrainedInCells femTrafo femMesh := by
  rintro k ⟨row, hm⟩
  simp only [femTrafo, List.mem_singleton, Prod.mk.injEq] at hm
  exact ⟨0, 0, hm.1.symm⟩

theorem fem_weakForm (x w : Fin 3 → ℚ) : weakForm 0 femMesh x w =
    (3 * 2 * (x 1 - x 0) * (w 1 - w 0) - (x 0 + x 1) / 2 * (w 1 - w 0) +
      2 * (5 / 32 * (x 0 * w 0 + x 1 * w 1) + 3 / 32 * (x 0 * w 1 + x 1 * w 0)) - 5 * (w 0 + w 1) / 4) +
    (3 * 2 * (x 2 - x 1) * (w 2 - w 1) - (x 1 + x 2) / 2 * (w 2 - w 1) +
      2 * (5 / 32 * (x 1 * w 1 + x 2 * w 2) + 3 / 32 * (x 1 * w 2 + x 2 * w 1)) - 5 * (w 1 + w 2) / 4) + (x 2 + 4) * w 2 := by
  have hl : faceForm 0 femMesh ⟨dgLeft, 0, cdFacePar .dirichlet⟩ x w = 0 := by
    simp [faceForm, integrateFace, cdFacePar]
  have hr : faceForm 0 femMesh ⟨cdFace, 1, cdFacePar .outflow⟩ x w = (x 2 + 4) * w 2 := by
    simp only [faceForm, integrateFace, cdFacePar, cdFace, femMesh, value, Mesh.onCell, cdBasis, cdPar, List.map_cons, List.map_nil, List.sum_cons,
      List.sum_nil, Fin.sum_univ_two]
    norm_num [dotProduct]
  have hb : femMesh.boundary = [⟨dgLeft, 0, cdFacePar .dirichlet⟩, ⟨cdFace, 1, cdFacePar .outflow⟩] := rfl
  unfold weakForm
  rw [hb]
  simp only [List.map_cons, List.map_nil, List.sum_cons, List.sum_nil, hl, hr]
  simp only [cellForm, integrate, femMesh, fem_tensor]
  simp only [Mesh.onCell, gradient, value, cdGeo, cdBasis, cdPar, List.map_cons, List.map_nil, List.sum_cons, List.sum_nil, Fin.sum_univ_two]
  norm_num [Matrix.mulVec, dotProduct, Fin.sum_univ_two]
  ring

/-- The theorems apply; with the value 7 on the left the solution is (7, 77683/13433, 659/133). -/
example (symmetric : Bool) (ci0 : Nat → Fin 3) (guess : Fin 3 → ℚ) (h : guess 0 = 7) :
    applyLinear femTrafo symmetric ci0 (meshPattern femMesh) (meshParts 0 femMesh) chosen true guess = some ![7, 77683 / 13433, 659 / 133] := by
  obtain ⟨x', h1, h2, h3, h4⟩ := C237_solver 0 femMesh femTrafo femTrafo_admissible femMesh_constrained femMesh_elliptic femMesh_incompressible
    symmetric ci0 chosen chosen_exact guess
  rw [h1, h4 ![7, 77683 / 13433, 659 / 133] _ _]
  · refine ⟨fun k row hm hn => ?_, fun w hw => ?_⟩
    · simp only [femTrafo, List.mem_singleton, Prod.mk.injEq] at hm
      exact absurd hm.2 hn
    · rw [fem_weakForm, fem_dirichlet w hw]
      change (3 * 2 * (77683 / 13433 - 7) * (w 1 - 0) - (7 + 77683 / 13433) / 2 * (w 1 - 0) +
        2 * (5 / 32 * (7 * 0 + 77683 / 13433 * w 1) + 3 / 32 * (7 * w 1 + 77683 / 13433 * 0)) - 5 * (0 + w 1) / 4) +
        (3 * 2 * (659 / 133 - 77683 / 13433) * (w 2 - w 1) - (77683 / 13433 + 659 / 133) / 2 * (w 2 - w 1) +
        2 * (5 / 32 * (77683 / 13433 * w 1 + 659 / 133 * w 2) + 3 / 32 * (77683 / 13433 * w 2 + 659 / 133 * w 1)) - 5 * (w 1 + w 2) / 4) +
        (659 / 133 + 4) * w 2 = 0
      ring
  · intro k hk
    simp only [femTrafo, Trafo.Dirichlet, List.mem_singleton, Prod.mk.injEq] at hk
    rw [hk.1, h]
    rfl

/-- The same problem without convection. -/
def femStill : Mesh ℚ ℚ Unit (Fin 3) 1 (N := 2) fun _ => 2 := { femMesh with par := fun _ => { cdPar with b := 0 } }

theorem femStill_elliptic : Elliptic 0 femTrafo femStill where
  weights := femMesh_elliptic.weights
  faceWeights := femMesh_elliptic.faceWeights
  diffusion := femMesh_elliptic.diffusion
  reaction := femMesh_elliptic.reaction
  conditions := femMesh_elliptic.conditions
  definite := femMesh_elliptic.definite

/-- Without convection the solution minimises the energy. -/
example (x y : Fin 3 → ℚ) (hx : Solution 0 femTrafo femStill x) (hy : y 0 = x 0) : potential 0 femStill x ≤ potential 0 femStill y :=
  C237_energy 0 _ femTrafo femStill_elliptic (fun _ _ => rfl) (fun _ _ => rfl) x y hx
    (fun k row hm hn => by
      simp only [femTrafo, List.mem_singleton, Prod.mk.injEq] at hm
      exact absurd hm.2 hn)
    fun k hk => by
      simp only [femTrafo, Trafo.Dirichlet, List.mem_singleton, Prod.mk.injEq] at hk
      rw [hk.1, hy]

end Verif
