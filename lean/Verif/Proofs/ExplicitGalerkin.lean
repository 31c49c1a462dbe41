import Verif.Proofs.ExplicitSolve
import Verif.Proofs.DGSolve
/-
Helper lemmas for C245.
-/
set_option linter.unusedSectionVars false
namespace Verif.ExplicitGalerkin
open LocalOp LocalOp.Spec ConstrainedSolve Constraints ExplicitSolve

section fem
open LocalOp.FEM
variable {K P Q I : Type} [Field K] [LinearOrder K] [IsStrictOrderedRing K] [DecidableEq I] [Inhabited I] [Fintype I] {d N : Nat} {n : Fin N → Nat}

theorem massPart_affine (o : Int) (sc : K) (pb : Transient K P Q I d n) (c : Fin N) :
    Affine (massPart o sc pb c) ((massPart o sc pb c).jacobian fun _ => 0) ((massPart o sc pb c).residual fun _ => 0) :=
  TransientSolve.mass_affine o sc pb _ (List.mem_map_of_mem (List.mem_finRange c))

theorem massPart_zero (o : Int) (sc : K) (pb : Transient K P Q I d n) (c : Fin N) (i : Nat) (hi : i < (massPart o sc pb c).nv) :
    (massPart o sc pb c).residual (fun _ => 0) i = 0 := by
  have h := TransientSolve.mass_linear o sc (pb.geo c) (pb.lfs c) (fun _ => 0)
  have hi' : i < n c := hi
  simp only [massPart, Part.ofCalls]
  split
  · have e := h ((Equiv.refl (Fin (n c))).symm ⟨i, hi'⟩)
    simp only [applyMatrix, mul_zero, Finset.sum_const_zero, add_zero] at e
    exact e
  · contradiction

theorem fem_mass (o : Int) (sc : K) (pb : Transient K P Q I d n) : Mass (pb.temporal o sc) := by
  have key : ∀ k e τ p, pb.temporal o sc k e τ = some p → k = .uvVolume ∧ ∃ c, p = massPart o sc pb c := by
    intro k e τ p hp
    unfold Transient.temporal at hp
    cases k <;> simp at hp
    obtain ⟨h, hp⟩ := hp
    exact ⟨rfl, _, hp.symm⟩
  constructor
  · intro k e τ hk
    cases hp : pb.temporal o sc k e τ with
    | none => rfl
    | some p => exact absurd (key k e τ p hp).1 hk
  · intro k e τ p hp
    obtain ⟨-, c, rfl⟩ := key k e τ p hp
    exact massPart_affine o sc pb c
  · intro k e τ p hp
    obtain ⟨-, c, rfl⟩ := key k e τ p hp
    exact massPart_zero o sc pb c

theorem fem_pair (o : Int) (sc : K) (pb : Transient K P Q I d n) (τ : K) (x : I → K) (k : I) :
    OneStep.form (contribution (pb.temporal o sc)) pb.trace τ x k = massForm o sc pb x fun k' => if k' = k then 1 else 0 := by
  rw [contribution_pair, TransientSolve.parts_temporal, TransientSolve.form_mass]

theorem fem_regular (o : Int) (sc : K) (pb : Transient K P Q I d n) (h : ∀ w, massForm o sc pb w w = 0 → ∀ k, w k = 0) (τ : K) (x : I → K)
    (hx : ∀ k, OneStep.form (contribution (pb.temporal o sc)) pb.trace τ x k = 0) : x = fun _ => 0 := by
  refine funext (h x ?_)
  rw [← TransientSolve.form_mass, ← TransientSolve.parts_temporal o sc pb τ, ← TransientSolve.sum_contribution]
  exact Finset.sum_eq_zero fun k _ => by rw [hx k, mul_zero]

theorem fem_entry (o : Int) (sc : K) (pb : Transient K P Q I d n) (τ : K) (y : I → K) (k l : I) :
    OneStep.form (matrixContribution (pb.temporal o sc)) pb.trace τ y k l =
      massForm o sc pb (fun k' => if k' = l then 1 else 0) fun k' => if k' = k then 1 else 0 := by
  have e := congrFun (form_act _ (fem_mass o sc pb) pb.trace τ y fun k' => if k' = l then 1 else 0) k
  rw [fem_pair] at e
  change matVec _ _ _ = _ at e
  simpa only [matVec, mul_ite, mul_one, mul_zero, Finset.sum_ite_eq', Finset.mem_univ, if_true] using e

end fem

section dg
open LocalOp.DG DGSolve
variable {K P Q : Type} [Field K] [LinearOrder K] [IsStrictOrderedRing K] {d N : Nat} {n : Fin N → Nat} [Inhabited ((c : Fin N) × Fin (n c))]

theorem dg_mass (o : Int) (sc : K) (pb : Transient K P Q d n) : Mass (pb.temporal o sc) := by
  have key : ∀ k e τ p, pb.temporal o sc k e τ = some p → k = .uvVolume ∧ ∃ c, p = FEM.massPart o sc (asFEM pb) c := by
    intro k e τ p hp
    unfold Transient.temporal at hp
    cases k <;> simp at hp
    obtain ⟨h, hp⟩ := hp
    exact ⟨rfl, _, hp.symm⟩
  constructor
  · intro k e τ hk
    cases hp : pb.temporal o sc k e τ with
    | none => rfl
    | some p => exact absurd (key k e τ p hp).1 hk
  · intro k e τ p hp
    obtain ⟨-, c, rfl⟩ := key k e τ p hp
    exact massPart_affine o sc _ c
  · intro k e τ p hp
    obtain ⟨-, c, rfl⟩ := key k e τ p hp
    exact massPart_zero o sc _ c

theorem dg_form (o : Int) (sc : K) (pb : Transient K P Q d n) (τ : K) (x w : MeshVec K n) :
    form (partsAt (pb.temporal o sc) pb.trace τ) x w = massOf o sc pb x w := by
  rw [DGSolve.parts_temporal, massPart_eq, TransientSolve.form_mass]
  rfl

theorem dg_regular (o : Int) (sc : K) (pb : Transient K P Q d n) (h : ∀ w, massOf o sc pb w w = 0 → ∀ k, w k = 0) (τ : K) (x : MeshVec K n)
    (hx : ∀ k, OneStep.form (contribution (pb.temporal o sc)) pb.trace τ x k = 0) : x = fun _ => 0 := by
  refine funext (h x ?_)
  rw [← dg_form o sc pb τ, ← TransientSolve.sum_contribution]
  exact Finset.sum_eq_zero fun k _ => by rw [hx k, mul_zero]

theorem dg_entry (o : Int) (sc : K) (pb : Transient K P Q d n) (τ : K) (y : MeshVec K n) (k l : (c : Fin N) × Fin (n c)) :
    OneStep.form (matrixContribution (pb.temporal o sc)) pb.trace τ y k l =
      massOf o sc pb (fun k' => if k' = l then 1 else 0) fun k' => if k' = k then 1 else 0 := by
  have e := congrFun (form_act _ (dg_mass o sc pb) pb.trace τ y fun k' => if k' = l then 1 else 0) k
  rw [contribution_pair, dg_form] at e
  change matVec _ _ _ = _ at e
  simpa only [matVec, mul_ite, mul_one, mul_zero, Finset.sum_ite_eq', Finset.mem_univ, if_true] using e

end dg
end Verif.ExplicitGalerkin
