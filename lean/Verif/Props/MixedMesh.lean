import Verif.Proofs.MixedMesh
import Verif.Props.VectorMesh
/-
C240: the mixed finite element method for diffusion on a mesh.
-/
namespace Verif
open LocalOp LocalOp.Spec ConstrainedSolve Constraints FEMMesh VectorMesh MixedMesh Tested

section
open MixedDiffusion
variable {K P Q I : Type} [Field K] [LinearOrder K] [IsStrictOrderedRing K] [Inhabited I] [DecidableEq I] {d N : Nat} {n m : Fin N → Nat}

omit [IsStrictOrderedRing K] in
/-- **C240 (weak form).** What the grid operator assembles, tested with a flux and a pressure, is the mixed weak form of the diffusion equation. -/
theorem C240_weak_form (o : Method K P d) (mesh : Mesh K P Q I d n m) (F : Fin N → Matrix (Fin d) (Fin d) K) (det : Fin N → K)
    (h : MixedDiffusion.Affine o mesh F det) (x w : I → K) :
    form (meshParts o mesh) x w =
      mesh.resistance o F det x w - mesh.pressureWork o F det x w - mesh.pressureWork o F det w x + mesh.source o w + mesh.boundaryWork o F det w :=
  mixed_form o mesh F det h x w

/-- **C240 (linear solver).** For a stable pair of spaces the solver returns from any initial guess the only solution with the Dirichlet values of the guess
(which are fluxes through the Neumann boundary), whatever the step of the numerical Jacobian. -/
theorem C240_solver [Fintype I] (o : Method K P d) (heps : 0 < o.eps) (mesh : Mesh K P Q I d n m) (F : Fin N → Matrix (Fin d) (Fin d) K) (det : Fin N → K)
    (ha : MixedDiffusion.Affine o mesh F det) (t : Trafo I K) (h : Admissible t) (pressureDof : I → Bool) (hsep : Separated mesh t pressureDof)
    (hst : Stable o mesh F det t pressureDof) (symmetric : Bool) (ci0 : Nat → I) (solve : Assembly.Matrix I K → (I → K) → I → K) (hs : Exact solve)
    (x : I → K) :
    ∃ x', applyLinear t symmetric ci0 (meshPattern mesh) (meshParts o mesh) solve true x = some x' ∧ Solution o mesh F det t x' ∧
      (∀ k, t.Dirichlet k → x' k = x k) ∧
      ∀ y, Solution o mesh F det t y → (∀ k, t.Dirichlet k → y k = x k) → y = x' := by
  obtain ⟨x', h1, h2, h3, h4⟩ := C232_linear_solver t h symmetric ci0 (meshPattern mesh) (meshParts o mesh) (mixed_fits o mesh t hsep.used)
    _ _ (mixed_affine o mesh heps) (mixed_regular o mesh F det t pressureDof hsep ha hst) solve hs x
  exact ⟨x', h1, (mixed_galerkin o mesh F det t pressureDof hsep ha x').mp h2, h3,
    fun y hy => h4 y ((mixed_galerkin o mesh F det t pressureDof hsep ha y).mpr hy)⟩

omit [LinearOrder K] [IsStrictOrderedRing K] [Inhabited I] in
/-- **C240 (local conservation).** In every cell whose indicator function is a test pressure, the divergence of the computed flux integrates to the source in
the cell. -/
theorem C240_local_conservation (o : Method K P d) (mesh : Mesh K P Q I d n m) (F : Fin N → Matrix (Fin d) (Fin d) K) (det : Fin N → K) (t : Trafo I K)
    (x : I → K) (hx : Solution o mesh F det t x) (c : Fin N) (w : I → K) (hw : Homogeneous t w)
    (h1 : ∀ p, mesh.pressure w c p = 1) (h0 : ∀ c' p, c' ≠ c → mesh.pressure w c' p = 0) :
    quadrature ((mesh.geo c).quadratureRule o.qorderP) (mesh.geo c).integrationElement (mesh.divergence F det x c) =
      quadrature ((mesh.geo c).quadratureRule o.qorderP) (mesh.geo c).integrationElement (mesh.par c).f := by
  have h := hx.balance w hw
  unfold Mesh.pressureWork Mesh.cellWork Mesh.source at h
  rw [Finset.sum_eq_single c, Finset.sum_eq_single c] at h
  · simpa only [h1, one_mul, mul_one] using h
  · intro c' _ hc
    refine (quadrature_congr _ _ _ _ fun q _ => ?_).trans (quadrature_zero' _ _)
    rw [h0 c' _ hc, mul_zero]
  · simp
  · intro c' _ hc
    refine (quadrature_congr _ _ _ _ fun q _ => ?_).trans (quadrature_zero' _ _)
    rw [h0 c' _ hc, zero_mul]
  · simp

/-- **C240 (least resistance).** Thomson's principle: with a symmetric positive semidefinite tensor and nonnegative quadrature weights, the computed flux loses
the least energy among all fluxes with the same Neumann values that balance the sources. -/
theorem C240_least_resistance (o : Method K P d) (mesh : Mesh K P Q I d n m) (F : Fin N → Matrix (Fin d) (Fin d) K) (det : Fin N → K)
    (ha : MixedDiffusion.Affine o mesh F det) (t : Trafo I K) (pressureDof : I → Bool) (hsep : Separated mesh t pressureDof)
    (hfree : ∀ k, pressureDof k = true → ¬ t.Constrained k)
    (hsym : ∀ c, ((mesh.par c).A (mesh.geo c).center).transpose = (mesh.par c).A (mesh.geo c).center)
    (hpos : ∀ c ξ, 0 ≤ ξ ⬝ᵥ Matrix.mulVec ((mesh.par c).A (mesh.geo c).center) ξ)
    (hq : ∀ c, ∀ q ∈ (mesh.geo c).quadratureRule o.qorderV, 0 ≤ q.2 * (mesh.geo c).integrationElement q.1)
    (x y : I → K) (hx : Solution o mesh F det t x) (hy : Conforming t y) (hd : ∀ k, t.Dirichlet k → y k = x k)
    (hb : ∀ w, Homogeneous t w → mesh.pressureWork o F det w y = mesh.source o w) :
    mesh.resistance o F det x x + 2 * mesh.boundaryWork o F det x ≤ mesh.resistance o F det y y + 2 * mesh.boundaryWork o F det y :=
  least_resistance o mesh F det t pressureDof hsep ha hfree hsym hpos hq x y hx hy hd hb

end

/-! A concrete case: two cells in one dimension, continuous piecewise linear fluxes and constant pressures; the pressure is given on the left, the flux on the
right. -/

def mixMethod : MixedDiffusion.Method ℚ ℚ 1 := ⟨2, 1, 1 / 1000, exInvert₁, 0⟩
def mixMesh : MixedDiffusion.Mesh ℚ ℚ Unit (Fin 5) 1 (N := 2) (fun _ => 2) fun _ => 1 where
  geo _ := cdGeo
  par _ := ⟨fun _ => !![3], fun _ => 0, fun _ => 4, fun _ => false, fun _ => 7⟩
  v _ := ⟨1, fun p => ![fun _ => 1 - p, fun _ => p], fun _ => ![!![-1], !![1]]⟩
  p _ := ⟨0, fun _ => ![1], fun _ => ![0]⟩
  dof c i := match i with
    | .inl i => ![![0, 1], ![1, 2]] c i
    | .inr _ => ![3, 4] c
  boundary := [⟨0, dgLeft, fun _ => false⟩, ⟨1, cdFace, fun _ => true⟩]
def mixTrafo : Trafo (Fin 5) ℚ := ⟨[(2, [])], false⟩
def mixPressure (k : Fin 5) : Bool := 3 ≤ k.val

theorem mixTrafo_empty {k : Fin 5} {row : List (Fin 5 × ℚ)} (h : (k, row) ∈ mixTrafo.rows) : k = 2 ∧ row = [] := by
  simpa only [mixTrafo, List.mem_singleton, Prod.mk.injEq] using h

theorem mix_dirichlet (w : Fin 5 → ℚ) : Homogeneous mixTrafo w ↔ w 2 = 0 := by
  refine ⟨fun h => h.2 2 (by unfold Trafo.Dirichlet mixTrafo; simp), fun h => ⟨fun k row hm hn => absurd (mixTrafo_empty hm).2 hn, fun k hk => ?_⟩⟩
  rw [(mixTrafo_empty hk).1, h]

theorem mixTrafo_admissible : Admissible mixTrafo where
  keys := by decide
  flag := by
    intro k row hm hn
    exact absurd (mixTrafo_empty hm).2 hn
  chains := by
    intro k row hm e he
    rw [(mixTrafo_empty hm).2] at he
    exact absurd he (by simp)

theorem mixMesh_separated : MixedDiffusion.Separated mixMesh mixTrafo mixPressure where
  flux := by decide
  pressure := by decide
  used k := by
    fin_cases k
    · exact ⟨0, .inl 0, rfl⟩
    · exact ⟨0, .inl 1, rfl⟩
    · exact ⟨1, .inl 1, rfl⟩
    · exact ⟨0, .inr 0, rfl⟩
    · exact ⟨1, .inr 0, rfl⟩
  rows k row hm e he := by
    rw [(mixTrafo_empty hm).2] at he
    exact absurd he (by simp)

theorem mix_jacobian (c : Fin 2) (p : ℚ) : (mixMesh.geo c).jacobianInverseTransposed p = !![2] := by
  ext i j
  fin_cases i; fin_cases j
  rfl

theorem mixMesh_affine : MixedDiffusion.Affine mixMethod mixMesh (fun _ => !![1 / 2]) fun _ => 1 / 2 where
  cells c := ⟨fun p => by rw [mix_jacobian]; ext i j; fin_cases i; fin_cases j; simp [Matrix.vecMul, dotProduct], fun _ => rfl, by norm_num⟩
  tensor c := by simp [mixMesh]
  reaction _ _ := rfl
  invert M h := by
    rw [Matrix.det_fin_one] at h
    ext i j
    fin_cases i; fin_cases j
    simp [mixMethod, exInvert₁, Matrix.mul_apply, h]

theorem mix_flux (w : Fin 5 → ℚ) (c : Fin 2) (p : ℚ) : mixMesh.flux (fun _ => !![1 / 2]) (fun _ => 1 / 2) w c p =
    fun _ => ![w 0, w 1] c * (1 - p) + ![w 1, w 2] c * p := by
  funext i
  unfold MixedDiffusion.Mesh.flux piola femVector
  fin_cases c <;> simp [mixMesh, Fin.sum_univ_two]

theorem mix_divergence (w : Fin 5 → ℚ) (c : Fin 2) (p : ℚ) : mixMesh.divergence (fun _ => !![1 / 2]) (fun _ => 1 / 2) w c p =
    2 * (![w 1, w 2] c - ![w 0, w 1] c) := by
  unfold MixedDiffusion.Mesh.divergence piolaDivergence
  rw [mix_jacobian]
  fin_cases c <;> simp [mixMesh, Fin.sum_univ_two, Matrix.trace, Matrix.vecMul, dotProduct] <;> ring

theorem mix_pressure (w : Fin 5 → ℚ) (c : Fin 2) (p : ℚ) : mixMesh.pressure w c p = ![w 3, w 4] c := by
  unfold MixedDiffusion.Mesh.pressure femScalar
  fin_cases c <;> simp [mixMesh]

theorem mix_inverse : (!![3] : Matrix (Fin 1) (Fin 1) ℚ)⁻¹ = !![1 / 3] := by
  refine Matrix.inv_eq_right_inv ?_
  ext i j
  fin_cases i; fin_cases j
  simp

theorem mix_resistance (x w : Fin 5 → ℚ) : mixMesh.resistance mixMethod (fun _ => !![1 / 2]) (fun _ => 1 / 2) x w =
    1 / 96 * (5 * (x 0 * w 0) + 3 * (x 0 * w 1) + 3 * (x 1 * w 0) + 10 * (x 1 * w 1) + 3 * (x 1 * w 2) + 3 * (x 2 * w 1) + 5 * (x 2 * w 2)) := by
  unfold MixedDiffusion.Mesh.resistance
  rw [Fin.sum_univ_two]
  simp only [mix_flux, quadrature]
  rw [show ∀ c : Fin 2, (mixMesh.par c).A (mixMesh.geo c).center = !![3] from fun _ => rfl, mix_inverse]
  simp [mixMesh, cdGeo, Matrix.mulVec, dotProduct]
  ring

theorem mix_work (x w : Fin 5 → ℚ) : mixMesh.pressureWork mixMethod (fun _ => !![1 / 2]) (fun _ => 1 / 2) x w = x 3 * (w 1 - w 0) + x 4 * (w 2 - w 1) := by
  unfold MixedDiffusion.Mesh.pressureWork MixedDiffusion.Mesh.cellWork
  rw [Fin.sum_univ_two]
  simp only [mix_divergence, mix_pressure, quadrature]
  simp [mixMesh, cdGeo]
  ring

theorem mixMesh_stable : MixedDiffusion.Stable mixMethod mixMesh (fun _ => !![1 / 2]) (fun _ => 1 / 2) mixTrafo mixPressure where
  definite w hw h k hk := by
    have h2 := (mix_dirichlet w).mp hw
    rw [mix_resistance, h2] at h
    have s0 := mul_self_nonneg (w 0)
    have s1 := mul_self_nonneg (w 1)
    have s2 := mul_self_nonneg (w 0 + w 1)
    have e0 := mul_self_eq_zero.mp (show w 0 * w 0 = 0 by nlinarith)
    have e1 := mul_self_eq_zero.mp (show w 1 * w 1 = 0 by nlinarith)
    fin_cases k <;> first | exact absurd hk (by decide) | assumption
  infSup x hx h k hk := by
    have h1 := h ![0, 1, 0, 0, 0] ((mix_dirichlet _).mpr rfl)
    have h2 := h ![1, 0, 0, 0, 0] ((mix_dirichlet _).mpr rfl)
    rw [mix_work] at h1 h2
    have h1' : x 3 * (1 - 0) + x 4 * (0 - 1) = 0 := h1
    have h2' : x 3 * (0 - 1) + x 4 * (0 - 0) = 0 := h2
    fin_cases k <;> first | exact absurd hk (by decide) | (simp only [Fin.reduceFinMk]; linarith)

theorem mix_boundary (w : Fin 5 → ℚ) : mixMesh.boundaryWork mixMethod (fun _ => !![1 / 2]) (fun _ => 1 / 2) w = -7 * w 0 := by
  unfold MixedDiffusion.Mesh.boundaryWork
  simp only [mix_flux, quadrature]
  simp [mixMesh, dgLeft, cdFace, dotProduct]

theorem mix_source (w : Fin 5 → ℚ) : mixMesh.source mixMethod w = 2 * w 3 + 2 * w 4 := by
  unfold MixedDiffusion.Mesh.source
  rw [Fin.sum_univ_two]
  simp only [mix_pressure, quadrature]
  simp [mixMesh, cdGeo]
  ring

theorem mix_solution : MixedDiffusion.Solution mixMethod mixMesh (fun _ => !![1 / 2]) (fun _ => 1 / 2) mixTrafo ![-4, -2, 0, 349 / 48, 365 / 48] where
  conforming k row hm hn := absurd (mixTrafo_empty hm).2 hn
  darcy w hw := by
    rw [mix_resistance, mix_work, mix_boundary, (mix_dirichlet w).mp hw]
    change 1 / 96 * (5 * (-4 * w 0) + 3 * (-4 * w 1) + 3 * (-2 * w 0) + 10 * (-2 * w 1) + 3 * (-2 * 0) + 3 * (0 * w 1) + 5 * (0 * 0)) -
      (349 / 48 * (w 1 - w 0) + 365 / 48 * (0 - w 1)) + -7 * w 0 = 0
    ring
  balance w hw := by
    rw [mix_work, mix_source]
    change w 3 * (-2 - -4) + w 4 * (0 - -2) = 2 * w 3 + 2 * w 4
    ring

/-- The theorems apply: the flux 4(x-1) is computed, with the pressures 349/48 and 365/48. -/
example (symmetric : Bool) (ci0 : Nat → Fin 5) (guess : Fin 5 → ℚ) (h : guess 2 = 0) :
    applyLinear mixTrafo symmetric ci0 (MixedDiffusion.meshPattern mixMesh) (MixedDiffusion.meshParts mixMethod mixMesh) chosen true guess =
      some ![-4, -2, 0, 349 / 48, 365 / 48] := by
  obtain ⟨x', h1, h2, h3, h4⟩ := C240_solver mixMethod (by norm_num [mixMethod]) mixMesh _ _ mixMesh_affine mixTrafo mixTrafo_admissible mixPressure
    mixMesh_separated mixMesh_stable symmetric ci0 chosen chosen_exact guess
  rw [h1, h4 _ mix_solution fun k hk => ?_]
  rw [(mixTrafo_empty hk).1, h]
  rfl

/-- The hypotheses on the test function in `C240_local_conservation` hold for the first cell, and those of `C240_least_resistance` hold. -/
example : (Homogeneous mixTrafo ![0, 0, 0, 1, 0] ∧ (∀ p, mixMesh.pressure ![0, 0, 0, 1, 0] 0 p = 1) ∧
      ∀ c' p, c' ≠ 0 → mixMesh.pressure ![0, 0, 0, 1, 0] c' p = 0) ∧
    (∀ k, mixPressure k = true → ¬ mixTrafo.Constrained k) ∧
    (∀ c ξ, 0 ≤ ξ ⬝ᵥ Matrix.mulVec ((mixMesh.par c).A (mixMesh.geo c).center) ξ) ∧
    ∀ c, ∀ q ∈ (mixMesh.geo c).quadratureRule mixMethod.qorderV, 0 ≤ q.2 * (mixMesh.geo c).integrationElement q.1 := by
  refine ⟨⟨(mix_dirichlet _).mpr rfl, fun p => by rw [mix_pressure]; rfl, fun c' p hc => ?_⟩, ?_, fun c ξ => ?_, fun c q hq => ?_⟩
  · rw [mix_pressure]
    fin_cases c'
    · exact absurd rfl hc
    · rfl
  · rintro k hk ⟨row, hm⟩
    rw [(mixTrafo_empty hm).1] at hk
    exact absurd hk (by decide)
  · change 0 ≤ ξ ⬝ᵥ Matrix.mulVec !![3] ξ
    simp [Matrix.mulVec, dotProduct]
    nlinarith [mul_self_nonneg (ξ 0)]
  · have hq' : q ∈ [((1 / 4 : ℚ), (1 / 2 : ℚ)), (3 / 4, 1 / 2)] := hq
    change 0 ≤ q.2 * (1 / 2)
    fin_cases hq' <;> norm_num

end Verif
