import Verif.Spec.MixedMesh
import Verif.Proofs.VectorMesh
import Verif.Props.MassOperators
import Mathlib.Algebra.Module.LinearMap.Defs
import Mathlib.LinearAlgebra.Pi
/-
Helper lemmas for C240.
-/
set_option linter.unusedSectionVars false
namespace Verif.MixedMesh
open LocalOp LocalOp.Spec ConstrainedSolve Constraints FEMMesh VectorMesh Tested

/-! ### Numerical Jacobians of linear operators -/

/-- A linear function. -/
def Lin {ν K : Type} [Field K] (f : (ν → K) → K) : Prop := (∀ x z, f (x + z) = f x + f z) ∧ ∀ (a : K) x, f (a • x) = a * f x

section lin
variable {ν K : Type} [Field K]

theorem Lin.zero : Lin fun _ : ν → K => (0 : K) := ⟨fun _ _ => by simp, fun _ _ => by simp⟩

theorem Lin.add {f g : (ν → K) → K} (hf : Lin f) (hg : Lin g) : Lin fun x => f x + g x :=
  ⟨fun x z => by simp only [hf.1, hg.1]; ring, fun a x => by simp only [hf.2, hg.2]; ring⟩

theorem Lin.sum {A : Type} (l : List A) (f : A → (ν → K) → K) (h : ∀ a ∈ l, Lin (f a)) : Lin fun x => (l.map fun a => f a x).sum := by
  induction l with
  | nil => exact Lin.zero
  | cons a l ih =>
    simp only [List.map_cons, List.sum_cons]
    exact (h a (by simp)).add (ih fun b hb => h b (by simp [hb]))

theorem total_map_list {A ι : Type} [DecidableEq ι] (l : List A) (key : A → ι) (val : A → K) (i : ι) :
    total (l.map fun a => (key a, val a)) i = (l.map fun a => if key a = i then val a else 0).sum := by
  induction l with
  | nil => simp [total]
  | cons a l ih => rw [List.map_cons, total_cons, ih, List.map_cons, List.sum_cons]

theorem Lin.map {A ι : Type} [DecidableEq ι] (l : List A) (key : A → ι) (val : A → (ν → K) → K) (h : ∀ a, Lin (val a)) (i : ι) :
    Lin fun x => total (l.map fun a => (key a, val a x)) i := by
  simp only [total_map_list]
  refine Lin.sum l _ fun a _ => ?_
  by_cases hk : key a = i
  · simpa [hk] using h a
  · simpa [hk] using Lin.zero

theorem Lin.flatMap {A ι : Type} [DecidableEq ι] (l : List A) (f : A → (ν → K) → Calls ι K) (i : ι) (h : ∀ a, Lin fun x => total (f a x) i) :
    Lin fun x => total (l.flatMap fun a => f a x) i := by
  simp only [total_flatMap]
  exact Lin.sum l _ fun a _ => h a

theorem Lin.append {ι : Type} [DecidableEq ι] {f g : (ν → K) → Calls ι K} {i : ι} (hf : Lin fun x => total (f x) i) (hg : Lin fun x => total (g x) i) :
    Lin fun x => total (f x ++ g x) i := by
  simp only [total_append]
  exact hf.add hg

theorem Lin.apply [Fintype ν] [DecidableEq ν] {f : (ν → K) → K} (h : Lin f) (x : ν → K) : f x = ∑ j, f (Pi.single j 1) * x j := by
  let L : (ν → K) →ₗ[K] K := ⟨⟨f, h.1⟩, h.2⟩
  have := LinearMap.pi_apply_eq_sum_univ L x
  refine this.trans (Finset.sum_congr rfl fun j _ => ?_)
  rw [smul_eq_mul, mul_comm]
  congr 1
  change f _ = f _
  congr 1
  funext k
  rw [Pi.single_apply]
  by_cases hk : j = k
  · simp [hk]
  · simp [hk, Ne.symm hk]

theorem Lin.quotient [DecidableEq ν] {f : (ν → K) → K} (h : Lin f) (x : ν → K) (j : ν) (δ : K) (hδ : δ ≠ 0) :
    (f (Function.update x j (x j + δ)) - f x) / δ = f (Pi.single j 1) := by
  have : Function.update x j (x j + δ) = x + δ • Pi.single j (1 : K) := by
    funext k
    by_cases hk : k = j
    · subst hk; simp
    · simp [hk]
  rw [this, h.1, h.2]
  field_simp
  ring

end lin

section numerical
variable {ι K I : Type} [DecidableEq ι] [Fintype ι] [Field K] [LinearOrder K] [IsStrictOrderedRing K] [Inhabited I] {n : Nat}

theorem total_numericalJacobian (e : ι ≃ Fin n) (eps : K) (alpha : (ι → K) → Calls ι K) (x : ι → K) (i j : ι) :
    total (MixedDiffusion.numericalJacobian e eps alpha x) (i, j) =
      (total (alpha (Function.update x j (x j + NumericalJacobian.delta eps (x j)))) i - total (alpha x) i) / NumericalJacobian.delta eps (x j) := by
  unfold MixedDiffusion.numericalJacobian
  dsimp only
  rw [total_flatMap]
  simp only [total_map_list, Prod.mk.injEq]
  rw [← List.ofFn_eq_map, List.sum_ofFn, Finset.sum_eq_single (e j)]
  · rw [← List.ofFn_eq_map, List.sum_ofFn, Finset.sum_eq_single (e i)]
    · simp
    · intro k _ hk
      rw [if_neg]
      rintro ⟨h, -⟩
      exact hk (by rw [← h]; simp)
    · simp
  · intro k _ hk
    rw [← List.ofFn_eq_map, List.sum_ofFn]
    refine Finset.sum_eq_zero fun l _ => ?_
    rw [if_neg]
    rintro ⟨-, h⟩
    exact hk (by rw [← h]; simp)
  · simp

theorem delta_ne (eps : K) (h : 0 < eps) (u : K) : NumericalJacobian.delta eps u ≠ 0 := by
  unfold NumericalJacobian.delta
  refine mul_ne_zero h.ne' ?_
  split <;> linarith

theorem numerical_affine (e : ι ≃ Fin n) (dof : ι → I) (eps : K) (heps : 0 < eps) (alpha : (ι → K) → Calls ι K) (l : Calls ι K)
    (h : ∀ i, Lin fun x => total (alpha x) i) :
    let p := Part.ofCalls e dof (fun x => alpha x ++ l) (MixedDiffusion.numericalJacobian e eps alpha)
    Affine p (p.jacobian fun _ => 0) (p.residual fun _ => 0) := by
  have hj : ∀ x, total (MixedDiffusion.numericalJacobian e eps alpha x) = fun q => total (alpha (Pi.single q.2 1)) q.1 := by
    intro x
    funext q
    obtain ⟨i, j⟩ := q
    rw [total_numericalJacobian]
    exact (h i).quotient x j _ (delta_ne eps heps _)
  have hp : Part.ofCalls e dof (fun x => alpha x ++ l) (MixedDiffusion.numericalJacobian e eps alpha) =
      Part.ofCalls e dof (fun x => alpha x ++ l) fun _ => MixedDiffusion.numericalJacobian e eps alpha fun _ => 0 := by
    unfold Part.ofCalls
    simp only [hj]
  rw [hp]
  refine ofCalls_affine e dof _ _ (affine_append _ _ _ fun x z i => ?_)
  rw [hj]
  change total (alpha (x + z)) i = total (alpha x) i + applyMatrix _ z i
  exact ((h i).1 x z).trans (congrArg _ ((h i).apply z))

end numerical

/-! ### The mixed method -/

section mixed
open MixedDiffusion
variable {K P Q I : Type} [Field K] {d N : Nat} {n m : Fin N → Nat}

theorem alpha_lin {n m : Nat} (qv qp : Int) (invert : Matrix (Fin d) (Fin d) K → Matrix (Fin d) (Fin d) K) (origin : P) (par : Param K P Q d)
    (geo : CellGeo K P d) (v : VectorBasis K P d n) (p : Basis K P d m) (i : Fin n ⊕ Fin m) :
    Lin fun x => total (MixedDiffusion.alphaVolume qv qp invert origin par geo v p x) i := by
  unfold MixedDiffusion.alphaVolume
  dsimp only
  refine Lin.append (Lin.flatMap _ _ _ fun ip => Lin.map _ _ _ (fun k => ⟨fun x z => ?_, fun a x => ?_⟩) _)
    (Lin.flatMap _ _ _ fun ip => Lin.append (Lin.append (Lin.map _ _ _ (fun k => ⟨fun x z => ?_, fun a x => ?_⟩) _)
      (Lin.map _ _ _ (fun k => ⟨fun x z => ?_, fun a x => ?_⟩) _)) (Lin.map _ _ _ (fun k => ⟨fun x z => ?_, fun a x => ?_⟩) _))
  · simp only [Pi.add_apply, add_smul, Finset.sum_add_distrib, Matrix.mulVec_add, add_dotProduct]
    ring
  · simp only [Pi.smul_apply, smul_eq_mul, mul_smul, ← Finset.smul_sum, Matrix.mulVec_smul, smul_dotProduct]
    ring
  · simp only [Pi.add_apply, add_mul, Finset.sum_add_distrib]
    ring
  · simp only [Pi.smul_apply, smul_eq_mul, mul_assoc, ← Finset.mul_sum]
    ring
  · simp only [Pi.add_apply, add_mul, Finset.sum_add_distrib]
    ring
  · simp only [Pi.smul_apply, smul_eq_mul, mul_assoc, ← Finset.mul_sum]
    ring
  · simp only [Pi.add_apply, add_mul, Finset.sum_add_distrib]
    ring
  · simp only [Pi.smul_apply, smul_eq_mul, mul_assoc, ← Finset.mul_sum]
    ring

variable [Inhabited I] [DecidableEq I] [LinearOrder K] (o : Method K P d) (mesh : Mesh K P Q I d n m) (F : Fin N → Matrix (Fin d) (Fin d) K)
  (det : Fin N → K)

theorem mixed_form (h : MixedDiffusion.Affine o mesh F det) (x w : I → K) : form (meshParts o mesh) x w =
    mesh.resistance o F det x w - mesh.pressureWork o F det x w - mesh.pressureWork o F det w x + mesh.source o w + mesh.boundaryWork o F det w := by
  unfold meshParts
  rw [form_append, form_finRange]
  have hF : form (mesh.boundary.map (facePart o mesh)) x w = mesh.boundaryWork o F det w := by
    unfold form Mesh.boundaryWork
    rw [List.map_map]
    congr 1
    refine List.map_congr_left fun E _ => ?_
    refine (ofCalls_tested _ _ _ _ x w).trans ?_
    exact (C168_sources o.qorderV o.qorderP o.invert o.origin h.invert { mesh.par E.inside with neumann := E.neumann } (mesh.geo E.inside) E.geo
      (mesh.v E.inside) (mesh.p E.inside) (F E.inside) (det E.inside) (h.cells E.inside) _).2
  rw [hF]
  congr 1
  unfold Mesh.resistance Mesh.pressureWork Mesh.source
  rw [← Finset.sum_sub_distrib, ← Finset.sum_sub_distrib, ← Finset.sum_add_distrib]
  refine Finset.sum_congr rfl fun c _ => ?_
  refine (ofCalls_tested _ _ _ _ x w).trans ?_
  rw [Tested.tested_append, mixed_lambda]
  congr 1
  have hw := C168_weak_form_partial o.qorderV o.qorderP o.invert o.origin h.invert (mesh.par c) (mesh.geo c) (mesh.v c) (mesh.p c) (F c) (det c)
    (h.cells c) (Or.inr fun q _ => h.reaction c q.1) (fun i => x (mesh.dof c i)) fun i => w (mesh.dof c i)
  unfold MixedWeakForm at hw
  rw [hw]
  have hi : o.invert ((mesh.par c).A (mesh.geo c).center) = ((mesh.par c).A (mesh.geo c).center)⁻¹ :=
    (Matrix.inv_eq_right_inv (h.invert _ (h.tensor c))).symm
  rw [hi, quadrature_add']
  have hz : quadrature ((mesh.geo c).quadratureRule o.qorderP) (mesh.geo c).integrationElement (fun pt => (mesh.par c).c pt *
      femScalar (mesh.p c).phi ((fun i => x (mesh.dof c i)) ∘ Sum.inr) pt * femScalar (mesh.p c).phi ((fun i => w (mesh.dof c i)) ∘ Sum.inr) pt) = 0 := by
    refine (quadrature_congr _ _ _ _ fun q _ => ?_).trans (quadrature_zero' _ _)
    rw [h.reaction, zero_mul, zero_mul]
  rw [hz, sub_zero, ← sub_sub]
  congr 1
  unfold Mesh.cellWork
  refine quadrature_congr _ _ _ _ fun q _ => ?_
  rw [mul_comm]
  rfl

theorem mixed_affine [IsStrictOrderedRing K] (he : 0 < o.eps) : ∀ p ∈ meshParts o mesh, Affine p (p.jacobian fun _ => 0) (p.residual fun _ => 0) := by
  intro p hp
  unfold meshParts at hp
  rcases List.mem_append.mp hp with hp | hp
  · obtain ⟨c, -, rfl⟩ := List.mem_map.mp hp
    exact numerical_affine _ _ _ he _ _ (alpha_lin _ _ _ _ _ _ _ _)
  · obtain ⟨F, -, rfl⟩ := List.mem_map.mp hp
    exact ofCalls_affine _ _ _ _ (affine_const _)

theorem mixed_fits (t : Trafo I K) (h : ∀ k, ∃ c i, mesh.dof c i = k) : PatternFits t (meshPattern mesh) (meshParts o mesh) := by
  refine fits (fun c => finSumFinEquiv) mesh.dof t (fun k _ => h k) _ fun p hp => ?_
  unfold meshParts at hp
  rcases List.mem_append.mp hp with hp | hp
  · obtain ⟨c, -, rfl⟩ := List.mem_map.mp hp
    exact ⟨c, _, _, rfl⟩
  · obtain ⟨F, -, rfl⟩ := List.mem_map.mp hp
    exact ⟨F.inside, _, _, rfl⟩

theorem flux_zero (c : Fin N) (p : P) : mesh.flux F det (fun _ => 0) c p = 0 := by
  unfold Mesh.flux piola
  have : femVector (mesh.v c).phi (fun _ => (0 : K)) p = 0 := by funext k; simp [femVector]
  rw [this]
  simp

theorem divergence_zero (c : Fin N) (p : P) : mesh.divergence F det (fun _ => 0) c p = 0 := by
  unfold Mesh.divergence piolaDivergence
  simp

theorem pressure_zero (c : Fin N) (p : P) : mesh.pressure (fun _ => 0) c p = 0 := by
  unfold Mesh.pressure femScalar
  simp

theorem resistance_flux (x x' w w' : I → K) (hx : ∀ c p, mesh.flux F det x c p = mesh.flux F det x' c p)
    (hw : ∀ c p, mesh.flux F det w c p = mesh.flux F det w' c p) : mesh.resistance o F det x w = mesh.resistance o F det x' w' := by
  unfold Mesh.resistance
  refine Finset.sum_congr rfl fun c _ => quadrature_congr _ _ _ _ fun q _ => ?_
  rw [hx, hw]

theorem resistance_zero (w : I → K) : mesh.resistance o F det (fun _ => 0) w = 0 := by
  unfold Mesh.resistance
  refine Finset.sum_eq_zero fun c _ => (quadrature_congr _ _ _ _ fun q _ => ?_).trans (quadrature_zero' _ _)
  rw [flux_zero]
  simp

theorem work_eq (x x' w w' : I → K) (h : ∀ c p, mesh.pressure x c p * mesh.divergence F det w c p = mesh.pressure x' c p * mesh.divergence F det w' c p) :
    mesh.pressureWork o F det x w = mesh.pressureWork o F det x' w' := by
  unfold Mesh.pressureWork Mesh.cellWork
  exact Finset.sum_congr rfl fun c _ => quadrature_congr _ _ _ _ fun q _ => h c q.1

theorem work_eq_zero (x w : I → K) (h : ∀ c p, mesh.pressure x c p * mesh.divergence F det w c p = 0) : mesh.pressureWork o F det x w = 0 := by
  unfold Mesh.pressureWork Mesh.cellWork
  exact Finset.sum_eq_zero fun c _ => (quadrature_congr _ _ _ _ fun q _ => h c q.1).trans (quadrature_zero' _ _)

theorem mixed_bilinear (h : MixedDiffusion.Affine o mesh F det) (x w : I → K) : ConstrainedSolve.bilinear (meshParts o mesh) x w =
    mesh.resistance o F det x w - mesh.pressureWork o F det x w - mesh.pressureWork o F det w x := by
  unfold ConstrainedSolve.bilinear
  rw [mixed_form o mesh F det h, mixed_form o mesh F det h, resistance_zero,
    work_eq_zero o mesh F det (fun _ => 0) w (fun c p => by rw [pressure_zero, zero_mul]),
    work_eq_zero o mesh F det w (fun _ => 0) (fun c p => by rw [divergence_zero, mul_zero])]
  ring

variable (t : Trafo I K) (pressureDof : I → Bool) (hs : MixedDiffusion.Separated mesh t pressureDof)
include hs

theorem flux_flip (x : I → K) (c : Fin N) (p : P) : mesh.flux F det (flip pressureDof x) c p = mesh.flux F det x c p := by
  unfold Mesh.flux VectorMesh.flip
  simp only [hs.flux, Bool.false_eq_true, if_false]

theorem flux_still (x : I → K) (c : Fin N) (p : P) : mesh.flux F det (still pressureDof x) c p = mesh.flux F det x c p := by
  unfold Mesh.flux still
  simp only [hs.flux, Bool.false_eq_true, if_false]

theorem divergence_flip (x : I → K) (c : Fin N) (p : P) : mesh.divergence F det (flip pressureDof x) c p = mesh.divergence F det x c p := by
  unfold Mesh.divergence VectorMesh.flip
  simp only [hs.flux, Bool.false_eq_true, if_false]

theorem divergence_still (x : I → K) (c : Fin N) (p : P) : mesh.divergence F det (still pressureDof x) c p = mesh.divergence F det x c p := by
  unfold Mesh.divergence still
  simp only [hs.flux, Bool.false_eq_true, if_false]

theorem flux_of_zero (x : I → K) (h : ∀ k, pressureDof k = false → x k = 0) (c : Fin N) (p : P) : mesh.flux F det x c p = 0 := by
  rw [← flux_zero mesh F det c p]
  unfold Mesh.flux
  congr 2
  funext i
  exact h _ (hs.flux c i)

theorem divergence_of_zero (x : I → K) (h : ∀ k, pressureDof k = false → x k = 0) (c : Fin N) (p : P) : mesh.divergence F det x c p = 0 := by
  rw [← divergence_zero mesh F det c p]
  unfold Mesh.divergence
  congr 1
  refine Finset.sum_congr rfl fun i _ => ?_
  rw [h _ (hs.flux c i)]

theorem pressure_of_zero (x : I → K) (h : ∀ k, pressureDof k = true → x k = 0) (c : Fin N) (p : P) : mesh.pressure x c p = 0 := by
  rw [← pressure_zero mesh c p]
  unfold Mesh.pressure
  congr 1
  funext i
  exact h _ (hs.pressure c i)

theorem pressure_flipped (x : I → K) (c : Fin N) (p : P) : mesh.pressure (flip pressureDof x) c p = -mesh.pressure x c p := by
  unfold Mesh.pressure VectorMesh.flip
  simp only [hs.pressure, if_true]
  simp [femScalar]

theorem pressure_still' (x : I → K) (c : Fin N) (p : P) : mesh.pressure (still pressureDof x) c p = 0 :=
  pressure_of_zero mesh t pressureDof hs _ (fun k hk => by unfold still; rw [if_pos hk]) c p

theorem pressure_alone' (x : I → K) (c : Fin N) (p : P) : mesh.pressure (alone pressureDof x) c p = mesh.pressure x c p := by
  unfold Mesh.pressure alone
  simp only [hs.pressure, if_true]

theorem mixed_regular (h : MixedDiffusion.Affine o mesh F det) (hst : MixedDiffusion.Stable o mesh F det t pressureDof) :
    Regular t (meshParts o mesh) := by
  intro y hy hw
  have hd := hw _ (homogeneous_flip t pressureDof hs.rows y hy)
  rw [mixed_bilinear o mesh F det h, resistance_flux o mesh F det y y _ y (fun _ _ => rfl) (flux_flip mesh F det t pressureDof hs y),
    work_eq o mesh F det y y _ y (fun c p => by rw [divergence_flip mesh F det t pressureDof hs])] at hd
  have e1 : mesh.pressureWork o F det (flip pressureDof y) y = -mesh.pressureWork o F det y y := by
    unfold Mesh.pressureWork Mesh.cellWork
    rw [← Finset.sum_neg_distrib]
    refine Finset.sum_congr rfl fun c _ => ?_
    rw [← quadrature_neg']
    refine quadrature_congr _ _ _ _ fun q _ => ?_
    rw [pressure_flipped mesh t pressureDof hs, neg_mul]
  rw [e1, sub_neg_eq_add, sub_add_cancel] at hd
  have hu := hst.definite y hy hd
  have hp := hst.infSup y hy fun w hw' => by
    have h1 := hw _ (homogeneous_still t pressureDof hs.rows w hw')
    have e2 : mesh.resistance o F det y (still pressureDof w) = 0 := by
      rw [resistance_flux o mesh F det y (fun _ => 0) _ (still pressureDof w)
        (fun c p => by rw [flux_of_zero mesh F det t pressureDof hs y hu, flux_zero]) (fun _ _ => rfl), resistance_zero]
    rw [mixed_bilinear o mesh F det h, e2,
      work_eq_zero o mesh F det (still pressureDof w) y (fun c p => by rw [pressure_still' mesh t pressureDof hs, zero_mul]),
      work_eq o mesh F det y y (still pressureDof w) w (fun c p => by rw [divergence_still mesh F det t pressureDof hs])] at h1
    linear_combination -h1
  intro k
  cases hk : pressureDof k
  · exact hu k hk
  · exact hp k hk

theorem mixed_galerkin (h : MixedDiffusion.Affine o mesh F det) (x : I → K) :
    Galerkin t (meshParts o mesh) x ↔ MixedDiffusion.Solution o mesh F det t x := by
  constructor
  · rintro ⟨hc, hg⟩
    refine ⟨hc, fun w hw => ?_, fun w hw => ?_⟩
    · have h1 := hg _ (homogeneous_still t pressureDof hs.rows w hw)
      have e1 : mesh.source o (still pressureDof w) = 0 := by
        unfold Mesh.source
        refine Finset.sum_eq_zero fun c _ => (quadrature_congr _ _ _ _ fun q _ => ?_).trans (quadrature_zero' _ _)
        rw [pressure_still' mesh t pressureDof hs, mul_zero]
      have e2 : mesh.boundaryWork o F det (still pressureDof w) = mesh.boundaryWork o F det w := by
        unfold Mesh.boundaryWork
        simp only [flux_still mesh F det t pressureDof hs]
      rw [mixed_form o mesh F det h, e1, e2, resistance_flux o mesh F det x x _ w (fun _ _ => rfl) (flux_still mesh F det t pressureDof hs w),
        work_eq_zero o mesh F det (still pressureDof w) x (fun c p => by rw [pressure_still' mesh t pressureDof hs, zero_mul]),
        work_eq o mesh F det x x (still pressureDof w) w (fun c p => by rw [divergence_still mesh F det t pressureDof hs])] at h1
      linear_combination h1
    · have h1 := hg _ (homogeneous_alone t pressureDof hs.rows w hw)
      have hz : ∀ k, pressureDof k = false → alone pressureDof w k = 0 := fun k hk => by
        unfold alone
        rw [if_neg (by rw [hk]; exact Bool.false_ne_true)]
      have e1 : mesh.source o (alone pressureDof w) = mesh.source o w := by
        unfold Mesh.source
        simp only [pressure_alone' mesh t pressureDof hs]
      have e2 : mesh.boundaryWork o F det (alone pressureDof w) = 0 := by
        unfold Mesh.boundaryWork
        refine List.sum_eq_zero fun v hv => ?_
        obtain ⟨E, -, rfl⟩ := List.mem_map.mp hv
        refine (quadrature_congr _ _ _ _ fun q _ => ?_).trans (quadrature_zero' _ _)
        rw [flux_of_zero mesh F det t pressureDof hs _ hz]
        simp
      have e3 : mesh.resistance o F det x (alone pressureDof w) = 0 := by
        unfold Mesh.resistance
        refine Finset.sum_eq_zero fun c _ => (quadrature_congr _ _ _ _ fun q _ => ?_).trans (quadrature_zero' _ _)
        rw [flux_of_zero mesh F det t pressureDof hs _ hz]
        simp
      rw [mixed_form o mesh F det h, e1, e2, e3,
        work_eq_zero o mesh F det x (alone pressureDof w) (fun c p => by rw [divergence_of_zero mesh F det t pressureDof hs _ hz, mul_zero]),
        work_eq o mesh F det (alone pressureDof w) w x x (fun c p => by rw [pressure_alone' mesh t pressureDof hs])] at h1
      linear_combination -h1
  · rintro ⟨hc, hd, hb⟩
    refine ⟨hc, fun w hw => ?_⟩
    rw [mixed_form o mesh F det h]
    linear_combination hd w hw - hb w hw

end mixed

section thomson
open MixedDiffusion
variable {K P Q I : Type} [Field K] [LinearOrder K] [IsStrictOrderedRing K] [Inhabited I] [DecidableEq I] {d N : Nat} {n m : Fin N → Nat}
  (o : Method K P d) (mesh : Mesh K P Q I d n m) (F : Fin N → Matrix (Fin d) (Fin d) K) (det : Fin N → K)

theorem flux_add (x z : I → K) (c : Fin N) (p : P) : mesh.flux F det (fun k => x k + z k) c p = mesh.flux F det x c p + mesh.flux F det z c p := by
  unfold Mesh.flux piola
  have : femVector (mesh.v c).phi (fun i => x (mesh.dof c (.inl i)) + z (mesh.dof c (.inl i))) p =
      femVector (mesh.v c).phi (fun i => x (mesh.dof c (.inl i))) p + femVector (mesh.v c).phi (fun i => z (mesh.dof c (.inl i))) p := by
    funext k
    simp [femVector, add_mul, Finset.sum_add_distrib]
  rw [this, Matrix.mulVec_add, smul_add]

theorem divergence_add (x z : I → K) (c : Fin N) (p : P) :
    mesh.divergence F det (fun k => x k + z k) c p = mesh.divergence F det x c p + mesh.divergence F det z c p := by
  unfold Mesh.divergence piolaDivergence
  simp only [add_smul, Finset.sum_add_distrib, Matrix.mul_add, Matrix.add_mul, smul_add, Matrix.trace_add]

theorem pressureWork_add (w x z : I → K) :
    mesh.pressureWork o F det w (fun k => x k + z k) = mesh.pressureWork o F det w x + mesh.pressureWork o F det w z := by
  unfold Mesh.pressureWork Mesh.cellWork
  rw [← Finset.sum_add_distrib]
  refine Finset.sum_congr rfl fun c _ => ?_
  rw [← quadrature_add']
  refine quadrature_congr _ _ _ _ fun q _ => ?_
  rw [divergence_add, mul_add]

theorem boundaryWork_add (x z : I → K) :
    mesh.boundaryWork o F det (fun k => x k + z k) = mesh.boundaryWork o F det x + mesh.boundaryWork o F det z := by
  unfold Mesh.boundaryWork
  rw [← List.sum_map_add]
  congr 1
  refine List.map_congr_left fun E _ => ?_
  rw [← quadrature_add']
  refine quadrature_congr _ _ _ _ fun q _ => ?_
  rw [flux_add, add_dotProduct]
  split <;> ring

theorem resistance_add_left (x z w : I → K) :
    mesh.resistance o F det (fun k => x k + z k) w = mesh.resistance o F det x w + mesh.resistance o F det z w := by
  unfold Mesh.resistance
  rw [← Finset.sum_add_distrib]
  refine Finset.sum_congr rfl fun c _ => ?_
  rw [← quadrature_add']
  refine quadrature_congr _ _ _ _ fun q _ => ?_
  rw [flux_add, Matrix.mulVec_add, add_dotProduct]

theorem resistance_comm (hsym : ∀ c, ((mesh.par c).A (mesh.geo c).center).transpose = (mesh.par c).A (mesh.geo c).center) (x w : I → K) :
    mesh.resistance o F det x w = mesh.resistance o F det w x := by
  unfold Mesh.resistance
  refine Finset.sum_congr rfl fun c _ => quadrature_congr _ _ _ _ fun q _ => ?_
  have hs : (((mesh.par c).A (mesh.geo c).center)⁻¹).transpose = ((mesh.par c).A (mesh.geo c).center)⁻¹ := by
    rw [Matrix.transpose_nonsing_inv, hsym]
  rw [dotProduct_comm, Matrix.dotProduct_mulVec, ← Matrix.mulVec_transpose, hs]

theorem resistance_nonneg (htensor : ∀ c, ((mesh.par c).A (mesh.geo c).center).det ≠ 0)
    (hpos : ∀ c ξ, 0 ≤ ξ ⬝ᵥ Matrix.mulVec ((mesh.par c).A (mesh.geo c).center) ξ)
    (hq : ∀ c, ∀ q ∈ (mesh.geo c).quadratureRule o.qorderV, 0 ≤ q.2 * (mesh.geo c).integrationElement q.1) (x : I → K) :
    0 ≤ mesh.resistance o F det x x := by
  unfold Mesh.resistance
  refine Finset.sum_nonneg fun c _ => quadrature_nonneg' _ _ _ (fun q _ => ?_) (hq c)
  have h := hpos c (Matrix.mulVec ((mesh.par c).A (mesh.geo c).center)⁻¹ (mesh.flux F det x c q.1))
  rwa [Matrix.mulVec_mulVec, Matrix.mul_nonsing_inv _ (isUnit_iff_ne_zero.mpr (htensor c)), Matrix.one_mulVec] at h

theorem least_resistance (t : Trafo I K) (pressureDof : I → Bool) (hsep : MixedDiffusion.Separated mesh t pressureDof)
    (ha : MixedDiffusion.Affine o mesh F det)
    (hfree : ∀ k, pressureDof k = true → ¬ t.Constrained k)
    (hsym : ∀ c, ((mesh.par c).A (mesh.geo c).center).transpose = (mesh.par c).A (mesh.geo c).center)
    (hpos : ∀ c ξ, 0 ≤ ξ ⬝ᵥ Matrix.mulVec ((mesh.par c).A (mesh.geo c).center) ξ)
    (hq : ∀ c, ∀ q ∈ (mesh.geo c).quadratureRule o.qorderV, 0 ≤ q.2 * (mesh.geo c).integrationElement q.1)
    (x y : I → K) (hx : MixedDiffusion.Solution o mesh F det t x) (hy : Conforming t y) (hd : ∀ k, t.Dirichlet k → y k = x k)
    (hb : ∀ w, Homogeneous t w → mesh.pressureWork o F det w y = mesh.source o w) :
    mesh.resistance o F det x x + 2 * mesh.boundaryWork o F det x ≤ mesh.resistance o F det y y + 2 * mesh.boundaryWork o F det y := by
  let z : I → K := fun k => y k - x k
  have hyz : y = fun k => x k + z k := by
    funext k
    simp [z]
  have hz : Homogeneous t z := by
    refine ⟨fun k row hm hn => ?_, fun k hk => by simp [z, hd k hk]⟩
    change y k - x k = _
    rw [hy k row hm hn, hx.conforming k row hm hn]
    clear hm hn
    induction row with
    | nil => simp
    | cons e l ih =>
      simp only [List.map_cons, List.sum_cons]
      rw [← ih]
      ring
  have hfalse : ∀ k row, (k, row) ∈ t.rows → pressureDof k = false := fun k row hm => by
    cases hk : pressureDof k
    · rfl
    · exact absurd ⟨row, hm⟩ (hfree k hk)
  have hu : Homogeneous t (alone pressureDof x) := by
    refine ⟨fun k row hm hn => ?_, fun k hk => ?_⟩
    · have hk := hfalse k row hm
      have : ∀ e ∈ row, e.2 * alone pressureDof x e.1 = 0 := fun e he => by
        unfold alone
        rw [hsep.rows k row hm e he, hk]
        simp
      rw [List.map_congr_left this]
      unfold alone
      rw [hk]
      simp
    · unfold alone
      rw [hfalse k [] hk]
      simp
  have hw : ∀ w, mesh.pressureWork o F det (alone pressureDof x) w = mesh.pressureWork o F det x w := fun w =>
    work_eq o mesh F det _ x w w fun c p => by rw [pressure_alone' mesh t pressureDof hsep]
  have h1 := hb _ hu
  have h2 := hx.balance _ hu
  have h3 := hx.darcy z hz
  rw [hw] at h1 h2
  have h4 := resistance_nonneg o mesh F det ha.tensor hpos hq z
  have h5 : mesh.pressureWork o F det x z = 0 := by
    rw [hyz, pressureWork_add] at h1
    linear_combination h1 - h2
  rw [hyz, resistance_add_left, resistance_comm o mesh F det hsym x (fun k => x k + z k), resistance_comm o mesh F det hsym z (fun k => x k + z k),
    resistance_add_left, resistance_add_left, boundaryWork_add, resistance_comm o mesh F det hsym z x]
  linarith

end thomson

end Verif.MixedMesh
