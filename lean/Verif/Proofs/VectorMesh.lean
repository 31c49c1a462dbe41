import Verif.Spec.VectorMesh
import Verif.Proofs.FEMMesh
import Verif.Props.VectorOperators
/-
Helper lemmas for C238 and C239.
-/
set_option linter.unusedSectionVars false
namespace Verif.VectorMesh
open LocalOp LocalOp.Spec ConstrainedSolve Constraints FEMMesh Tested

section generic
variable {I K : Type} [Inhabited I] [DecidableEq I] [Field K] {N : Nat} {ι : Fin N → Type} [∀ c, DecidableEq (ι c)] [∀ c, Fintype (ι c)]
  {size : Fin N → Nat}

theorem fits (e : (c : Fin N) → ι c ≃ Fin (size c)) (dof : (c : Fin N) → ι c → I) (t : Trafo I K) (h : ∀ k, t.Constrained k → ∃ c i, dof c i = k)
    (parts : List (Part I K)) (hp : ∀ p ∈ parts, ∃ c res jac, p = Part.ofCalls (e c) (dof c) res jac) :
    PatternFits t ((List.finRange N).map fun c => fullVolumePattern (e c) (dof c)) parts := by
  have linked : ∀ c (i j : ι c), ∃ q ∈ (List.finRange N).map fun c => fullVolumePattern (e c) (dof c),
      ∃ l ∈ q.links, q.v l.1 = dof c i ∧ q.u l.2 = dof c j := by
    intro c i j
    refine ⟨_, List.mem_map.mpr ⟨c, List.mem_finRange c, rfl⟩, ((e c i : Nat), (e c j : Nat)), ?_, ?_, ?_⟩
    · simp only [fullVolumePattern, List.mem_flatMap, List.mem_map, List.mem_range]
      exact ⟨_, (e c i).isLt, _, (e c j).isLt, rfl⟩
    · simp [fullVolumePattern]
    · simp [fullVolumePattern]
  refine ⟨?_, ?_, ?_⟩
  · intro q hq l hl
    obtain ⟨c, -, rfl⟩ := List.mem_map.mp hq
    simp only [fullVolumePattern, List.mem_flatMap, List.mem_map, List.mem_range] at hl
    obtain ⟨i, hi, j, hj, rfl⟩ := hl
    exact ⟨hi, hj⟩
  · intro x p hm i hi j hj _
    obtain ⟨p, hm', rfl⟩ := List.mem_map.mp hm
    obtain ⟨c, res, jac, rfl⟩ := hp p hm'
    obtain ⟨q, hq, l, hl, h1, h2⟩ := linked c ((e c).symm ⟨i, hi⟩) ((e c).symm ⟨j, hj⟩)
    refine ⟨q, hq, l, hl, ?_, ?_⟩
    · rw [h1]
      change _ = if h : i < size c then dof c _ else _
      rw [dif_pos (show i < size c from hi)]
    · rw [h2]
      change _ = if h : j < size c then dof c _ else _
      rw [dif_pos (show j < size c from hj)]
  · intro k hk
    obtain ⟨c, i, hi⟩ := h k hk
    obtain ⟨q, hq, l, hl, h1, h2⟩ := linked c i i
    exact ⟨q, hq, l, hl, h1.trans hi, h2.trans hi⟩

theorem form_append (a b : List (Part I K)) (x w : I → K) : form (a ++ b) x w = form a x w + form b x w := by
  unfold form
  rw [List.map_append, List.sum_append]

theorem form_finRange (p : Fin N → Part I K) (x w : I → K) : form ((List.finRange N).map p) x w =
    ∑ c, ((List.range (p c).nv).map fun i => w ((p c).v i) * (p c).residual (fun j => x ((p c).u j)) i).sum := by
  unfold form
  rw [← List.sum_ofFn, List.ofFn_eq_map, List.map_map]
  rfl

end generic

theorem affine_append {K ι : Type} [Field K] [DecidableEq ι] [Fintype ι] (res : (ι → K) → Calls ι K) (l : Calls ι K) (J : ι × ι → K)
    (h : IsAffineWith (fun x => total (res x)) J) : IsAffineWith (fun x => total (res x ++ l)) J := by
  intro x z i
  have := h x z i
  simp only [total_append] at this ⊢
  rw [this]
  ring

theorem affine_const {K ι : Type} [Field K] [DecidableEq ι] [Fintype ι] (l : Calls ι K) :
    IsAffineWith (fun _ : ι → K => total l) (total ([] : Calls (ι × ι) K)) := by
  intro x z i
  simp [applyMatrix, total]

section elasticity
open Elasticity
variable {K P Q I : Type} [Field K] [LinearOrder K] [IsStrictOrderedRing K] [Inhabited I] [DecidableEq I] {d N : Nat} {n : Fin N → Nat}

theorem elasticity_form (o : Int) (mesh : Mesh K P Q I d n) (x w : I → K) : form (meshParts o mesh) x w = mesh.work o x w - mesh.load o w := by
  unfold meshParts
  rw [form_append, form_finRange]
  have hF : form (mesh.boundary.map (facePart o mesh)) x w = 0 := by
    unfold form
    refine List.sum_eq_zero fun v hv => ?_
    rw [List.map_map] at hv
    obtain ⟨F, -, rfl⟩ := List.mem_map.mp hv
    refine (ofCalls_tested _ _ _ _ x w).trans ?_
    exact elastic_boundary o _ F.geo (mesh.fe F.inside) _
  rw [hF, add_zero]
  unfold Mesh.work Mesh.load
  rw [← Finset.sum_sub_distrib]
  refine Finset.sum_congr rfl fun c _ => ?_
  refine (ofCalls_tested _ _ _ _ x w).trans ?_
  rw [Tested.tested_append, elastic_alpha two_ne_zero, elastic_lambda, ← sub_eq_add_neg]
  rfl

theorem elasticity_affine (o : Int) (mesh : Mesh K P Q I d n) :
    ∀ p ∈ meshParts o mesh, Affine p (p.jacobian fun _ => 0) (p.residual fun _ => 0) := by
  intro p hp
  unfold meshParts at hp
  rcases List.mem_append.mp hp with hp | hp
  · obtain ⟨c, -, rfl⟩ := List.mem_map.mp hp
    exact ofCalls_affine _ _ _ _ (affine_append _ _ _ (C166_jacobian two_ne_zero o (mesh.par c) (mesh.geo c) (mesh.fe c)).1)
  · obtain ⟨F, -, rfl⟩ := List.mem_map.mp hp
    exact ofCalls_affine _ _ _ _ (affine_const _)

theorem elasticity_fits (o : Int) (t : Trafo I K) (mesh : Mesh K P Q I d n) (h : ConstrainedInCells t mesh) :
    PatternFits t (meshPattern mesh) (meshParts o mesh) := by
  refine fits (fun c => finProdFinEquiv) mesh.dof t h _ fun p hp => ?_
  unfold meshParts at hp
  rcases List.mem_append.mp hp with hp | hp
  · obtain ⟨c, -, rfl⟩ := List.mem_map.mp hp
    exact ⟨c, _, _, rfl⟩
  · obtain ⟨F, -, rfl⟩ := List.mem_map.mp hp
    exact ⟨F.inside, _, _, rfl⟩

theorem grad_zero (mesh : Mesh K P Q I d n) (c : Fin N) (p : P) : mesh.grad (fun _ => 0) c p = 0 := by
  ext i j
  simp [Mesh.grad, femGradient]

theorem work_zero (o : Int) (mesh : Mesh K P Q I d n) (w : I → K) : mesh.work o (fun _ => 0) w = 0 := by
  unfold Mesh.work
  refine Finset.sum_eq_zero fun c _ => ?_
  refine (quadrature_congr _ _ _ _ fun q _ => ?_).trans (quadrature_zero' _ _)
  rw [grad_zero]
  simp [elasticDensity, strain, contract]

theorem work_nonneg (o : Int) (t : Trafo I K) (mesh : Mesh K P Q I d n) (h : Held o t mesh) (w : I → K) : 0 ≤ mesh.work o w w := by
  unfold Mesh.work
  refine Finset.sum_nonneg fun c _ => quadrature_nonneg' _ _ _ (fun q _ => ?_) (h.weights c)
  exact add_nonneg (mul_nonneg (mul_nonneg two_pos.le (h.mu c _)) (contract_self_nonneg _)) (mul_nonneg (h.lambda c _) (mul_self_nonneg _))

theorem work_comm (o : Int) (mesh : Mesh K P Q I d n) (x w : I → K) : mesh.work o x w = mesh.work o w x := by
  unfold Mesh.work
  exact Finset.sum_congr rfl fun c _ => quadrature_congr _ _ _ _ fun q _ => elasticDensity_comm _ _ _ _

theorem elasticity_bilinear (o : Int) (mesh : Mesh K P Q I d n) (x w : I → K) : ConstrainedSolve.bilinear (meshParts o mesh) x w = mesh.work o x w := by
  unfold ConstrainedSolve.bilinear
  rw [elasticity_form, elasticity_form, work_zero]
  ring

theorem elasticity_regular (o : Int) (t : Trafo I K) (mesh : Mesh K P Q I d n) (h : Held o t mesh) : Regular t (meshParts o mesh) := by
  intro y hy hw
  have := hw y hy
  rw [elasticity_bilinear] at this
  exact h.korn y hy this

theorem elasticity_galerkin (o : Int) (t : Trafo I K) (mesh : Mesh K P Q I d n) (x : I → K) :
    Galerkin t (meshParts o mesh) x ↔ Equilibrium o t mesh x := by
  unfold Galerkin Equilibrium
  simp only [elasticity_form, sub_eq_zero]

end elasticity

section stokes
open TaylorHood
variable {K P Q I : Type} [Field K] [Inhabited I] [DecidableEq I] {d N : Nat} {n m : Fin N → Nat}

theorem flow_form (s : Int) (mesh : Mesh K P Q I d n m) (x w : I → K) : form (meshParts s mesh) x w = weakForm s mesh x w := by
  unfold meshParts weakForm
  rw [form_append, form_finRange]
  have hF : form (mesh.boundary.map (facePart s mesh)) x w = mesh.traction s w := by
    unfold form Mesh.traction
    rw [List.map_map]
    congr 1
    refine List.map_congr_left fun F _ => ?_
    refine (ofCalls_tested _ _ _ _ x w).trans ?_
    exact flow_boundary _ _ _ _ _ _
  rw [hF]
  congr 1
  unfold Mesh.sources
  rw [← Finset.sum_add_distrib]
  refine Finset.sum_congr rfl fun c _ => ?_
  refine (ofCalls_tested _ _ _ _ x w).trans ?_
  rw [Tested.tested_append, flow_alpha, flow_lambda]
  rfl

theorem jacobian_const (b : Bool) (s : Int) (par : Param K P Q d) {n m : Nat} (geo : CellGeo K P d) (v : Basis K P d n) (p : Basis K P d m)
    (h : par.navier = false) (x : Dof d n m → K) : jacobianVolume b s par geo v p x = jacobianVolume b s par geo v p fun _ => 0 := by
  unfold TaylorHood.jacobianVolume
  simp only [h, Bool.false_eq_true, if_false]

theorem stokes_affine (s : Int) (mesh : Mesh K P Q I d n m) (h : ∀ c, (mesh.par c).navier = false) :
    ∀ p ∈ meshParts s mesh, Affine p (p.jacobian fun _ => 0) (p.residual fun _ => 0) := by
  intro p hp
  unfold meshParts at hp
  rcases List.mem_append.mp hp with hp | hp
  · obtain ⟨c, -, rfl⟩ := List.mem_map.mp hp
    unfold cellPart
    rw [show (fun x => jacobianVolume (mesh.isSimplex c) s (mesh.par c) (mesh.geo c) (mesh.v c) (mesh.p c) x) =
      fun _ => jacobianVolume (mesh.isSimplex c) s (mesh.par c) (mesh.geo c) (mesh.v c) (mesh.p c) fun _ => 0 from
      funext fun x => jacobian_const _ _ _ _ _ _ (h c) x]
    exact ofCalls_affine _ _ _ _ (affine_append _ _ _
      (C167_stokes (mesh.isSimplex c) s (mesh.par c) (mesh.geo c) (mesh.v c) (mesh.p c) (h c) fun _ => 0).1)
  · obtain ⟨F, -, rfl⟩ := List.mem_map.mp hp
    exact ofCalls_affine _ _ _ _ (affine_const _)

theorem flow_fits (s : Int) (t : Trafo I K) (mesh : Mesh K P Q I d n m) (h : ∀ k, ∃ c i, mesh.dof c i = k) :
    PatternFits t (meshPattern mesh) (meshParts s mesh) := by
  refine fits (fun c => numbering d (n c) (m c)) mesh.dof t (fun k _ => h k) _ fun p hp => ?_
  unfold meshParts at hp
  rcases List.mem_append.mp hp with hp | hp
  · obtain ⟨c, -, rfl⟩ := List.mem_map.mp hp
    exact ⟨c, _, _, rfl⟩
  · obtain ⟨F, -, rfl⟩ := List.mem_map.mp hp
    exact ⟨F.inside, _, _, rfl⟩

theorem stokes_bilinear (s : Int) (mesh : Mesh K P Q I d n m) (h : ∀ c, (mesh.par c).navier = false) (x w : I → K) :
    ConstrainedSolve.bilinear (meshParts s mesh) x w =
      ∑ c, mesh.integral s c (fun p => contract (viscousStress (mesh.par c).fullTensor ((mesh.par c).mu p) (mesh.grad x c p)) (mesh.grad w c p)) -
        mesh.pressureWork s x w - mesh.pressureWork s w x := by
  have hg : ∀ c p, mesh.grad (fun _ => 0) c p = 0 := fun c p => by ext i j; simp [Mesh.grad, femGradient]
  have hp : ∀ c p, mesh.pressure (fun _ => 0) c p = 0 := fun c p => by simp [Mesh.pressure, femScalar]
  have hv : ∀ full (mu : K), viscousStress full mu (0 : Matrix (Fin d) (Fin d) K) = 0 := fun full mu => by cases full <;> simp [viscousStress]
  have h0 : ∀ c, mesh.integral s c (fun p => flowDensity (mesh.par c).navier (mesh.par c).fullTensor ((mesh.par c).mu p) ((mesh.par c).rho p)
      (mesh.grad (fun _ => 0) c p) (mesh.velocity (fun _ => 0) c p) (mesh.pressure (fun _ => 0) c p) (mesh.grad w c p) (mesh.velocity w c p)
      (mesh.pressure w c p)) = 0 := by
    intro c
    unfold Mesh.integral
    refine (quadrature_congr _ _ _ _ fun q _ => ?_).trans (quadrature_zero' _ _)
    unfold flowDensity
    rw [hg, hp, h c, hv]
    simp [contract]
  unfold ConstrainedSolve.bilinear
  rw [flow_form, flow_form]
  unfold weakForm
  rw [Finset.sum_eq_zero fun c _ => h0 c]
  unfold Mesh.pressureWork
  rw [← Finset.sum_sub_distrib, ← Finset.sum_sub_distrib]
  have : ∀ c, mesh.integral s c (fun p => flowDensity (mesh.par c).navier (mesh.par c).fullTensor ((mesh.par c).mu p) ((mesh.par c).rho p)
      (mesh.grad x c p) (mesh.velocity x c p) (mesh.pressure x c p) (mesh.grad w c p) (mesh.velocity w c p) (mesh.pressure w c p)) =
      mesh.integral s c (fun p => contract (viscousStress (mesh.par c).fullTensor ((mesh.par c).mu p) (mesh.grad x c p)) (mesh.grad w c p)) -
      mesh.integral s c (fun p => mesh.pressure x c p * (mesh.grad w c p).trace) - mesh.integral s c fun p => mesh.pressure w c p * (mesh.grad x c p).trace := by
    intro c
    unfold Mesh.integral
    rw [sub_eq_add_neg, sub_eq_add_neg, ← quadrature_neg', ← quadrature_neg', ← quadrature_add', ← quadrature_add']
    refine quadrature_congr _ _ _ _ fun q _ => ?_
    unfold flowDensity
    rw [h c]
    simp only [Bool.false_eq_true, if_false]
    ring
  simp only [this]
  ring

/-- The pressure with the opposite sign. -/
def flip (pressureDof : I → Bool) (x : I → K) : I → K := fun k => if pressureDof k then -x k else x k

/-- The pressure alone. -/
def alone (pressureDof : I → Bool) (x : I → K) : I → K := fun k => if pressureDof k then x k else 0

/-- The velocity without the pressure. -/
def still (pressureDof : I → Bool) (x : I → K) : I → K := fun k => if pressureDof k then 0 else x k

theorem scaled_homogeneous (t : Trafo I K) (pressureDof : I → Bool)
    (h : ∀ k row, (k, row) ∈ t.rows → ∀ e ∈ row, pressureDof e.1 = pressureDof k) (a b : K) (x : I → K)
    (hx : Homogeneous t x) : Homogeneous t fun k => if pressureDof k then a * x k else b * x k := by
  refine ⟨fun k row hm hn => ?_, fun k hk => ?_⟩
  · have h1 := hx.1 k row hm hn
    have h2 : ∀ e ∈ row, pressureDof e.1 = pressureDof k := h k row hm
    have h3 : ∀ c : K, (row.map fun e => e.2 * (c * x e.1)).sum = c * (row.map fun e => e.2 * x e.1).sum := by
      intro c
      generalize row = l
      induction l with
      | nil => simp
      | cons e l ih =>
        simp only [List.map_cons, List.sum_cons, ih]
        ring
    have h4 : (row.map fun e => e.2 * if pressureDof e.1 then a * x e.1 else b * x e.1) =
        row.map fun e => e.2 * ((if pressureDof k then a else b) * x e.1) := by
      refine List.map_congr_left fun e he => ?_
      rw [h2 e he]
      split <;> rfl
    change (if pressureDof k then a * x k else b * x k) = (row.map fun e => e.2 * if pressureDof e.1 then a * x e.1 else b * x e.1).sum
    rw [h4, h3, ← h1]
    split <;> rfl
  · change (if pressureDof k then a * x k else b * x k) = 0
    rw [hx.2 k hk]
    simp

theorem homogeneous_flip (t : Trafo I K) (pressureDof : I → Bool)
    (h : ∀ k row, (k, row) ∈ t.rows → ∀ e ∈ row, pressureDof e.1 = pressureDof k) (x : I → K)
    (hx : Homogeneous t x) : Homogeneous t (flip pressureDof x) := by
  have := scaled_homogeneous t pressureDof h (-1) 1 x hx
  unfold flip
  simpa only [neg_one_mul, one_mul] using this

theorem homogeneous_still (t : Trafo I K) (pressureDof : I → Bool)
    (h : ∀ k row, (k, row) ∈ t.rows → ∀ e ∈ row, pressureDof e.1 = pressureDof k) (x : I → K)
    (hx : Homogeneous t x) : Homogeneous t (still pressureDof x) := by
  have := scaled_homogeneous t pressureDof h 0 1 x hx
  unfold still
  simpa only [zero_mul, one_mul] using this

theorem homogeneous_alone (t : Trafo I K) (pressureDof : I → Bool)
    (h : ∀ k row, (k, row) ∈ t.rows → ∀ e ∈ row, pressureDof e.1 = pressureDof k) (x : I → K)
    (hx : Homogeneous t x) : Homogeneous t (alone pressureDof x) := by
  have := scaled_homogeneous t pressureDof h 1 0 x hx
  unfold alone
  simpa only [zero_mul, one_mul] using this

variable (t : Trafo I K) (mesh : Mesh K P Q I d n m) (pressureDof : I → Bool) (h : Separated t mesh pressureDof)
include h

theorem grad_flip (x : I → K) : mesh.grad (flip pressureDof x) = mesh.grad x := by
  funext c p
  unfold Mesh.grad flip
  simp only [h.velocity, Bool.false_eq_true, if_false]

theorem grad_still (x : I → K) : mesh.grad (still pressureDof x) = mesh.grad x := by
  funext c p
  unfold Mesh.grad still
  simp only [h.velocity, Bool.false_eq_true, if_false]

theorem grad_alone (x : I → K) (c : Fin N) (p : P) : mesh.grad (alone pressureDof x) c p = 0 := by
  unfold Mesh.grad alone
  simp only [h.velocity, Bool.false_eq_true, if_false]
  ext i j
  simp [femGradient]

theorem velocity_alone (x : I → K) (c : Fin N) (p : P) : mesh.velocity (alone pressureDof x) c p = 0 := by
  unfold Mesh.velocity alone
  simp only [h.velocity, Bool.false_eq_true, if_false]
  ext i
  simp [femFunction]

theorem pressure_alone (x : I → K) : mesh.pressure (alone pressureDof x) = mesh.pressure x := by
  funext c p
  unfold Mesh.pressure alone
  simp only [h.pressure, if_true]

theorem pressure_flip (x : I → K) (c : Fin N) (p : P) : mesh.pressure (flip pressureDof x) c p = -mesh.pressure x c p := by
  unfold Mesh.pressure flip
  simp only [h.pressure, if_true]
  simp [femScalar]

theorem pressure_still (x : I → K) (c : Fin N) (p : P) : mesh.pressure (still pressureDof x) c p = 0 := by
  unfold Mesh.pressure still
  simp only [h.pressure, if_true]
  simp [femScalar]

theorem pressureWork_flip (s : Int) (x : I → K) : mesh.pressureWork s (flip pressureDof x) x = -mesh.pressureWork s x x := by
  unfold Mesh.pressureWork Mesh.integral
  rw [← Finset.sum_neg_distrib]
  refine Finset.sum_congr rfl fun c _ => ?_
  rw [← quadrature_neg']
  refine quadrature_congr _ _ _ _ fun q _ => ?_
  rw [pressure_flip t mesh pressureDof h, neg_mul]

theorem stokes_dissipation (s : Int) (hn : ∀ c, (mesh.par c).navier = false) (x : I → K) :
    ConstrainedSolve.bilinear (meshParts s mesh) x (flip pressureDof x) = mesh.dissipation s x := by
  have h2 : mesh.pressureWork s x (flip pressureDof x) = mesh.pressureWork s x x := by
    unfold Mesh.pressureWork
    rw [grad_flip t mesh pressureDof h]
  rw [stokes_bilinear s mesh hn, pressureWork_flip t mesh pressureDof h, h2, grad_flip t mesh pressureDof h]
  unfold Mesh.dissipation
  ring

theorem stokes_regular [LinearOrder K] (s : Int) (hs : StableStokes s t mesh pressureDof) : Regular t (meshParts s mesh) := by
  intro y hy hw
  have hd := hw _ (homogeneous_flip t pressureDof h.rows y hy)
  rw [stokes_dissipation t mesh pressureDof h s hs.stokes] at hd
  have hu := hs.korn y hy hd
  have hg : ∀ c p, mesh.grad y c p = 0 := by
    intro c p
    unfold Mesh.grad
    ext i j
    simp only [femGradient, Matrix.of_apply, Matrix.zero_apply]
    refine Finset.sum_eq_zero fun k _ => ?_
    rw [hu _ (h.velocity c _), zero_mul]
  have hp := hs.infSup y hy fun w hw' => by
    have h1 := hw _ (homogeneous_still t pressureDof h.rows w hw')
    rw [stokes_bilinear s mesh hs.stokes] at h1
    have e1 : ∑ c, mesh.integral s c (fun p => contract (viscousStress (mesh.par c).fullTensor ((mesh.par c).mu p) (mesh.grad y c p))
        (mesh.grad (still pressureDof w) c p)) = 0 := by
      refine Finset.sum_eq_zero fun c _ => ?_
      unfold Mesh.integral
      refine (quadrature_congr _ _ _ _ fun q _ => ?_).trans (quadrature_zero' _ _)
      rw [hg]
      cases (mesh.par c).fullTensor <;> simp [viscousStress, contract]
    have e2 : mesh.pressureWork s (still pressureDof w) y = 0 := by
      unfold Mesh.pressureWork
      refine Finset.sum_eq_zero fun c _ => ?_
      unfold Mesh.integral
      refine (quadrature_congr _ _ _ _ fun q _ => ?_).trans (quadrature_zero' _ _)
      rw [pressure_still t mesh pressureDof h, zero_mul]
    have e3 : mesh.pressureWork s y (still pressureDof w) = mesh.pressureWork s y w := by
      unfold Mesh.pressureWork
      rw [grad_still t mesh pressureDof h]
    rw [e1, e2, e3] at h1
    linear_combination -h1
  intro k
  cases hk : pressureDof k
  · exact hu k hk
  · exact hp k hk

omit h in
theorem flow_galerkin (s : Int) (x : I → K) : Galerkin t (meshParts s mesh) x ↔ Solution s t mesh x := by
  unfold Galerkin Solution
  simp only [flow_form]

end stokes

end Verif.VectorMesh
