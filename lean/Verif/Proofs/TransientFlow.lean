import Verif.Spec.TransientFlow
import Verif.Proofs.VectorMesh
import Verif.Proofs.MassOperators
import Verif.Proofs.DGFlowForm
import Verif.Proofs.TransientSolve
import Verif.Props.MassOperators
/-
Helper lemmas for C252.
-/
set_option linter.unusedSectionVars false
namespace Verif.TransientFlow
open LocalOp LocalOp.Spec LocalOp.TaylorHood ConstrainedSolve Constraints FEMMesh VectorMesh Tested
open OneStep (Kind Setting factors)

section
variable {K P Q I : Type} [Field K] [LinearOrder K] [Inhabited I] [DecidableEq I] {d N : Nat} {n m : Fin N → Nat}

theorem parts_spatial (s : Int) (pb : Transient K P Q I d n m) (τ : K) : partsAt (pb.spatial s) pb.trace τ =
    (List.finRange N).map (alphaPart s (pb.at τ)) ++ (List.finRange N).map (lambdaPart s (pb.at τ)) ++ (pb.at τ).boundary.map (facePart s (pb.at τ)) := by
  unfold partsAt Transient.trace
  rw [List.filterMap_append, List.filterMap_append, List.filterMap_map, List.filterMap_map, List.filterMap_map]
  congr 1
  · congr 1
    · rw [← TransientSolve.filterMap_range]
      rfl
    · rw [← TransientSolve.filterMap_range]
      rfl
  · have : (pb.at τ).boundary = pb.boundary.map fun F => F τ := rfl
    rw [this, List.map_map]
    exact TransientSolve.filterMap_getElem (fun F => facePart s (pb.at τ) (F τ)) pb.boundary

theorem parts_temporal (sm : Int) (pb : Transient K P Q I d n m) (τ : K) :
    partsAt (pb.temporal sm) pb.trace τ = (List.finRange N).map (massPart sm pb) := by
  unfold partsAt Transient.trace
  rw [List.filterMap_append, List.filterMap_append, List.filterMap_map, List.filterMap_map, List.filterMap_map]
  have h2 : ∀ l : List Nat, l.filterMap ((fun c : Kind × Nat => pb.temporal sm c.1 c.2 τ) ∘ fun F => (Kind.vBoundary, F)) = [] := by
    intro l
    rw [List.filterMap_eq_nil_iff]
    intro a _
    rfl
  have h3 : ∀ l : List Nat, l.filterMap ((fun c : Kind × Nat => pb.temporal sm c.1 c.2 τ) ∘ fun F => (Kind.vVolume, F)) = [] := by
    intro l
    rw [List.filterMap_eq_nil_iff]
    intro a _
    rfl
  rw [h2, h3, List.append_nil, List.append_nil, ← TransientSolve.filterMap_range]
  rfl

theorem form_spatial (s : Int) (pb : Transient K P Q I d n m) (τ : K) (x w : I → K) :
    form (partsAt (pb.spatial s) pb.trace τ) x w = weakForm s (pb.at τ) x w := by
  rw [← flow_form, parts_spatial]
  unfold meshParts
  rw [VectorMesh.form_append, VectorMesh.form_append, VectorMesh.form_append]
  congr 1
  rw [form_finRange, form_finRange, form_finRange, ← Finset.sum_add_distrib]
  refine Finset.sum_congr rfl fun c _ => ?_
  have h1 := ofCalls_tested (numbering d (n c) (m c)) ((pb.at τ).dof c) (fun x => alphaVolume ((pb.at τ).isSimplex c) s ((pb.at τ).par c) ((pb.at τ).geo c) ((pb.at τ).v c)
    ((pb.at τ).p c) x) (fun x => jacobianVolume ((pb.at τ).isSimplex c) s ((pb.at τ).par c) ((pb.at τ).geo c) ((pb.at τ).v c) ((pb.at τ).p c) x) x w
  have h2 := ofCalls_tested (numbering d (n c) (m c)) ((pb.at τ).dof c) (fun _ => lambdaVolume ((pb.at τ).isSimplex c) s ((pb.at τ).par c) ((pb.at τ).geo c)
    ((pb.at τ).v c) ((pb.at τ).p c)) (fun _ => []) x w
  have h3 := ofCalls_tested (numbering d (n c) (m c)) ((pb.at τ).dof c) (fun x => alphaVolume ((pb.at τ).isSimplex c) s ((pb.at τ).par c) ((pb.at τ).geo c) ((pb.at τ).v c)
    ((pb.at τ).p c) x ++ lambdaVolume ((pb.at τ).isSimplex c) s ((pb.at τ).par c) ((pb.at τ).geo c) ((pb.at τ).v c) ((pb.at τ).p c))
    (fun x => jacobianVolume ((pb.at τ).isSimplex c) s ((pb.at τ).par c) ((pb.at τ).geo c) ((pb.at τ).v c) ((pb.at τ).p c) x) x w
  rw [Tested.tested_append, ← h1, ← h2] at h3
  exact h3.symm

theorem form_temporal (sm : Int) (pb : Transient K P Q I d n m) (τ : K) (x w : I → K) :
    form (partsAt (pb.temporal sm) pb.trace τ) x w = massForm sm pb x w := by
  rw [parts_temporal, form_finRange]
  unfold massForm
  refine Finset.sum_congr rfl fun c _ => ?_
  refine (ofCalls_tested _ _ _ _ x w).trans ?_
  rw [mass_alpha]
  rfl

theorem scheme_form (s sm : Int) (pb : Transient K P Q I d n m) (S : Setting K) (x : Nat → I → K) (w : I → K) :
    stageForm S (pb.spatial s) (pb.temporal sm) pb.trace x w = schemeForm s sm pb S x w := by
  unfold stageForm schemeForm
  simp only [form_spatial, form_temporal]

theorem spatial_affine (s : Int) (pb : Transient K P Q I d n m) (τ : K) (h : ∀ c, (pb.par τ c).navier = false) :
    ∀ p ∈ partsAt (pb.spatial s) pb.trace τ, Affine p (p.jacobian fun _ => 0) (p.residual fun _ => 0) := by
  intro p hp
  rw [parts_spatial] at hp
  rcases List.mem_append.mp hp with hp | hp
  · rcases List.mem_append.mp hp with hp | hp
    · obtain ⟨c, -, rfl⟩ := List.mem_map.mp hp
      unfold alphaPart
      have hc : ((pb.at τ).par c).navier = false := h c
      rw [show (fun x => jacobianVolume ((pb.at τ).isSimplex c) s ((pb.at τ).par c) ((pb.at τ).geo c) ((pb.at τ).v c) ((pb.at τ).p c) x) =
        fun _ => jacobianVolume ((pb.at τ).isSimplex c) s ((pb.at τ).par c) ((pb.at τ).geo c) ((pb.at τ).v c) ((pb.at τ).p c) fun _ => 0 from
        funext fun x => VectorMesh.jacobian_const _ _ _ _ _ _ hc x]
      exact ofCalls_affine _ _ _ _ (C167_stokes ((pb.at τ).isSimplex c) s ((pb.at τ).par c) ((pb.at τ).geo c) ((pb.at τ).v c) ((pb.at τ).p c) hc fun _ => 0).1
    · obtain ⟨c, -, rfl⟩ := List.mem_map.mp hp
      exact ofCalls_affine _ _ _ _ (affine_const _)
  · obtain ⟨F, -, rfl⟩ := List.mem_map.mp hp
    exact ofCalls_affine _ _ _ _ (affine_const _)

theorem temporal_affine (sm : Int) (pb : Transient K P Q I d n m) (τ : K) :
    ∀ p ∈ partsAt (pb.temporal sm) pb.trace τ, Affine p (p.jacobian fun _ => 0) (p.residual fun _ => 0) := by
  intro p hp
  rw [parts_temporal] at hp
  obtain ⟨c, -, rfl⟩ := List.mem_map.mp hp
  refine ofCalls_affine _ _ _ _ (affine_of_linear _ _ fun x y => ?_)
  rw [mass_alpha, mass_jacobian]

theorem spatial_fits (s : Int) (t : Trafo I K) (pb : Transient K P Q I d n m) (h : ∀ k, ∃ c i, pb.dof c i = k) (τ : K) :
    PatternFits t pb.pattern (partsAt (pb.spatial s) pb.trace τ) := by
  refine VectorMesh.fits (fun c => numbering d (n c) (m c)) pb.dof t (fun k _ => h k) _ fun p hp => ?_
  rw [parts_spatial] at hp
  rcases List.mem_append.mp hp with hp | hp
  · rcases List.mem_append.mp hp with hp | hp
    · obtain ⟨c, -, rfl⟩ := List.mem_map.mp hp
      exact ⟨c, _, _, rfl⟩
    · obtain ⟨c, -, rfl⟩ := List.mem_map.mp hp
      exact ⟨c, _, _, rfl⟩
  · obtain ⟨F, -, rfl⟩ := List.mem_map.mp hp
    exact ⟨F.inside, _, _, rfl⟩

theorem temporal_fits (sm : Int) (t : Trafo I K) (pb : Transient K P Q I d n m) (h : ∀ k, ∃ c i, pb.dof c i = k) (τ : K) :
    PatternFits t pb.pattern (partsAt (pb.temporal sm) pb.trace τ) := by
  refine VectorMesh.fits (fun c => numbering d (n c) (m c)) pb.dof t (fun k _ => h k) _ fun p hp => ?_
  rw [parts_temporal] at hp
  obtain ⟨c, -, rfl⟩ := List.mem_map.mp hp
  exact ⟨c, _, _, rfl⟩

theorem bilinear_spatial (s : Int) (pb : Transient K P Q I d n m) (τ : K) (x w : I → K) :
    ConstrainedSolve.bilinear (partsAt (pb.spatial s) pb.trace τ) x w = ConstrainedSolve.bilinear (meshParts s (pb.at τ)) x w := by
  unfold ConstrainedSolve.bilinear
  rw [form_spatial, form_spatial, flow_form, flow_form]

theorem mass_sub_left (sm : Int) (pb : Transient K P Q I d n m) (x y w : I → K) :
    massForm sm pb (fun k => x k - y k) w = massForm sm pb x w - massForm sm pb y w := by
  unfold massForm
  rw [← Finset.sum_sub_distrib]
  refine Finset.sum_congr rfl fun c _ => ?_
  rw [sub_eq_add_neg, ← quadrature_neg', ← quadrature_add']
  refine quadrature_congr _ _ _ _ fun q _ => ?_
  have e : pb.velocity (fun k => x k - y k) c q.1 = pb.velocity x c q.1 - pb.velocity y c q.1 := by
    funext i
    simp [Transient.velocity, femFunction, sub_mul, Finset.sum_sub_distrib]
  rw [e, sub_dotProduct]
  ring

theorem mass_symm (sm : Int) (pb : Transient K P Q I d n m) (x w : I → K) : massForm sm pb x w = massForm sm pb w x := by
  unfold massForm
  refine Finset.sum_congr rfl fun c _ => quadrature_congr _ _ _ _ fun q _ => ?_
  rw [dotProduct_comm]

theorem mass_zero (sm : Int) (pb : Transient K P Q I d n m) (w : I → K) : massForm sm pb (fun _ => 0) w = 0 := by
  have := mass_sub_left sm pb w w w
  simpa using this

theorem bilinear_temporal (sm : Int) (pb : Transient K P Q I d n m) (τ : K) (x w : I → K) :
    ConstrainedSolve.bilinear (partsAt (pb.temporal sm) pb.trace τ) x w = massForm sm pb x w := by
  unfold ConstrainedSolve.bilinear
  rw [form_temporal, form_temporal, mass_zero, sub_zero]

variable (t : Trafo I K) (pb : Transient K P Q I d n m) (pressureDof : I → Bool) (h : Separated t (pb.at 0) pressureDof)
include h

theorem separated_at (τ : K) : Separated t (pb.at τ) pressureDof := ⟨h.velocity, h.pressure, h.used, h.rows⟩

theorem velocity_flip (x : I → K) : pb.velocity (VectorMesh.flip pressureDof x) = pb.velocity x := by
  funext c p
  have := h.velocity c
  unfold Transient.velocity VectorMesh.flip
  have e : ∀ i, pressureDof (pb.dof c (.inl i)) = false := this
  simp only [e, Bool.false_eq_true, if_false]

theorem velocity_still (x : I → K) : pb.velocity (still pressureDof x) = pb.velocity x := by
  funext c p
  unfold Transient.velocity still
  have e : ∀ i, pressureDof (pb.dof c (.inl i)) = false := h.velocity c
  simp only [e, Bool.false_eq_true, if_false]

theorem mass_flip (sm : Int) (x w : I → K) : massForm sm pb x (VectorMesh.flip pressureDof w) = massForm sm pb x w := by
  unfold massForm
  rw [velocity_flip t pb pressureDof h]

theorem mass_alone (sm : Int) (x w : I → K) : massForm sm pb x (alone pressureDof w) = 0 := by
  unfold massForm
  refine Finset.sum_eq_zero fun c _ => ?_
  refine (quadrature_congr _ _ _ _ fun q _ => ?_).trans (quadrature_zero' _ _)
  have e : pb.velocity (alone pressureDof w) c q.1 = 0 := velocity_alone t (pb.at 0) pressureDof h w c q.1
  rw [e, dotProduct_zero, mul_zero]

end

section
variable {K P Q I : Type} [Field K] [LinearOrder K] [IsStrictOrderedRing K] [Inhabited I] [DecidableEq I] {d N : Nat} {n m : Fin N → Nat}
variable (t : Trafo I K) (pb : Transient K P Q I d n m) (pressureDof : I → Bool) (h : Separated t (pb.at 0) pressureDof) (s sm : Int)
  (hs : StableFlow s sm t pb pressureDof)
include h hs

theorem mass_nonneg (w : I → K) : 0 ≤ massForm sm pb w w :=
  Finset.sum_nonneg fun c _ => quadrature_nonneg' _ _ _ (fun q _ => mul_nonneg (hs.rho c q.1) (dot_self_nonneg _)) (hs.massWeights c)

theorem dissipation_nonneg (τ : K) (w : I → K) : 0 ≤ (pb.at τ).dissipation s w :=
  Finset.sum_nonneg fun c _ => quadrature_nonneg' _ _ _ (fun q _ => viscous_nonneg _ _ (hs.mu τ c q.1) _) (hs.weights c)

theorem stage_regular (τ f1 b : K) (h1 : 0 < f1) (hb : 0 < b) (y : I → K) (hy : Homogeneous t y)
    (hw : ∀ w, Homogeneous t w → f1 * massForm sm pb y w + b * ConstrainedSolve.bilinear (meshParts s (pb.at τ)) y w = 0) : ∀ k, y k = 0 := by
  have hτ := separated_at t pb pressureDof h τ
  have hn : ∀ c, ((pb.at τ).par c).navier = false := hs.stokes τ
  have hd := hw _ (homogeneous_flip t pressureDof h.rows y hy)
  rw [stokes_dissipation t (pb.at τ) pressureDof hτ s hn, mass_flip t pb pressureDof h] at hd
  have h2 := mass_nonneg t pb pressureDof h s sm hs y
  have h3 := mul_nonneg hb.le (dissipation_nonneg t pb pressureDof h s sm hs τ y)
  have h4 : massForm sm pb y y = 0 := by
    refine le_antisymm ?_ h2
    by_contra hpos
    have h5 := mul_pos h1 (not_le.mp hpos)
    linarith
  have hu := hs.definite y hy h4
  have hz : ∀ w, massForm sm pb y w = 0 := by
    intro w
    unfold massForm
    refine Finset.sum_eq_zero fun c _ => ?_
    refine (quadrature_congr _ _ _ _ fun q _ => ?_).trans (quadrature_zero' _ _)
    have e : pb.velocity y c q.1 = 0 := by
      funext i
      simp only [Transient.velocity, femFunction, Pi.zero_apply]
      refine Finset.sum_eq_zero fun j _ => ?_
      rw [hu (pb.dof c (.inl (i, j))) (h.velocity c _), zero_mul]
    rw [e, zero_dotProduct, mul_zero]
  have hg : ∀ c p, (pb.at τ).grad y c p = 0 := by
    intro c p
    unfold Mesh.grad
    ext i j
    simp only [femGradient, Matrix.of_apply, Matrix.zero_apply]
    refine Finset.sum_eq_zero fun k _ => ?_
    rw [hu _ (hτ.velocity c _), zero_mul]
  have hp := hs.infSup τ y hy fun w hw' => by
    have h1 := hw _ (homogeneous_still t pressureDof h.rows w hw')
    rw [hz, mul_zero, zero_add] at h1
    have h1 := (mul_eq_zero.mp h1).resolve_left hb.ne'
    rw [stokes_bilinear s (pb.at τ) hn] at h1
    have e1 : ∑ c, (pb.at τ).integral s c (fun p => contract (viscousStress ((pb.at τ).par c).fullTensor (((pb.at τ).par c).mu p) ((pb.at τ).grad y c p))
        ((pb.at τ).grad (still pressureDof w) c p)) = 0 := by
      refine Finset.sum_eq_zero fun c _ => ?_
      unfold Mesh.integral
      refine (quadrature_congr _ _ _ _ fun q _ => ?_).trans (quadrature_zero' _ _)
      rw [hg]
      cases ((pb.at τ).par c).fullTensor <;> simp [viscousStress, contract]
    have e2 : (pb.at τ).pressureWork s (still pressureDof w) y = 0 := by
      unfold Mesh.pressureWork
      refine Finset.sum_eq_zero fun c _ => ?_
      unfold Mesh.integral
      refine (quadrature_congr _ _ _ _ fun q _ => ?_).trans (quadrature_zero' _ _)
      rw [pressure_still t (pb.at τ) pressureDof hτ, zero_mul]
    have e3 : (pb.at τ).pressureWork s y (still pressureDof w) = (pb.at τ).pressureWork s y w := by
      unfold Mesh.pressureWork
      rw [grad_still t (pb.at τ) pressureDof hτ]
    rw [e1, e2, e3] at h1
    linear_combination -h1
  intro k
  cases hk : pressureDof k
  · exact hu k hk
  · exact hp k hk

end

end Verif.TransientFlow
