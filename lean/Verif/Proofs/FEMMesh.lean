import Verif.Spec.FEMMesh
import Verif.Proofs.DGForm
import Verif.Proofs.DGMesh
import Verif.Proofs.ConstrainedSolve
/-
Helper lemmas for C237: from the local operator to the forms of the grid operator.
-/
set_option linter.unusedSectionVars false
namespace Verif.FEMMesh
open LocalOp LocalOp.Spec LocalOp.FEM Matrix ConstrainedSolve Constraints

section bridge
variable {I K ι : Type} [Inhabited I] [Field K] [DecidableEq ι] [Fintype ι] {n : Nat}

theorem sum_range_fin (n : Nat) (f : Nat → K) : ((List.range n).map f).sum = ∑ i : Fin n, f i := by
  rw [← List.sum_ofFn]
  congr 1
  refine List.ext_getElem (by simp) fun i h1 h2 => ?_
  simp

theorem sum_equiv (e : ι ≃ Fin n) (f : ι → K) : ∑ i : Fin n, f (e.symm i) = ∑ i, f i := Equiv.sum_comp e.symm f

/-- Testing the local residual of a part. -/
theorem ofCalls_tested (e : ι ≃ Fin n) (dof : ι → I) (res : (ι → K) → Calls ι K) (jac : (ι → K) → Calls (ι × ι) K) (x w : I → K) :
    let p := Part.ofCalls e dof res jac
    ((List.range p.nv).map fun i => w (p.v i) * p.residual (fun j => x (p.u j)) i).sum =
      tested (res fun i => x (dof i)) fun i => w (dof i) := by
  intro p
  have hp : p.nv = n := rfl
  rw [hp, sum_range_fin]
  unfold tested
  rw [← sum_equiv e]
  refine Finset.sum_congr rfl fun i _ => ?_
  have hx : (fun j => x (p.u (e j))) = fun i => x (dof i) := by
    funext j
    simp [p, Part.ofCalls]
  have hv : p.v i = dof (e.symm i) := by simp [p, Part.ofCalls]
  have hr : p.residual (fun j => x (p.u j)) i = total (res fun j => x (p.u (e j))) (e.symm i) := by
    change (if h : (i : Nat) < n then _ else _) = _
    rw [dif_pos i.isLt]
  rw [hr, hv, hx]

/-- A part of an affine local operator is affine. -/
theorem ofCalls_affine (e : ι ≃ Fin n) (dof : ι → I) (res : (ι → K) → Calls ι K) (J : Calls (ι × ι) K)
    (h : IsAffineWith (fun x => total (res x)) (total J)) :
    let p := Part.ofCalls e dof res fun _ => J
    Affine p (p.jacobian fun _ => 0) (p.residual fun _ => 0) := by
  intro p x
  refine ⟨rfl, fun i hi => ?_⟩
  have hi' : i < n := hi
  have h1 : p.residual x i = total (res fun j => x (e j)) (e.symm ⟨i, hi'⟩) := by
    change (if h : i < n then _ else _) = _
    rw [dif_pos hi']
  have h0 : p.residual (fun _ => 0) i = total (res fun _ => 0) (e.symm ⟨i, hi'⟩) := by
    change (if h : i < n then _ else _) = _
    rw [dif_pos hi']
  have h2 := h (fun _ => 0) (fun j => x (e j)) (e.symm ⟨i, hi'⟩)
  simp only at h2
  have h3 : ((fun _ => 0 : ι → K) + fun j => x (e j)) = fun j => x (e j) := by
    funext j
    simp
  rw [h3] at h2
  rw [h1, h0, h2]
  congr 1
  have h4 : ((List.range p.nu).map fun j => p.jacobian (fun _ => 0) i j * x j).sum =
      ∑ j : Fin n, p.jacobian (fun _ => 0) i j * x j := sum_range_fin n _
  rw [h4]
  unfold applyMatrix
  rw [← sum_equiv e]
  refine Finset.sum_congr rfl fun j _ => ?_
  have : p.jacobian (fun _ => 0) i j = total J (e.symm ⟨i, hi'⟩, e.symm j) := by
    change (if h : i < n ∧ (j : Nat) < n then _ else _) = _
    rw [dif_pos ⟨hi', j.isLt⟩]
  simp only [this, Equiv.apply_symm_apply]

end bridge

section fem
variable {K P Q I : Type} [Field K] [LinearOrder K] [Inhabited I] {d N : Nat} {n : Fin N → Nat}

theorem cell_form (add : Int) (mesh : Mesh K P Q I d n) (c : Fin N) (x w : I → K) :
    tested (alphaVolume add (mesh.geo c) (mesh.par c) (mesh.lfs c) (mesh.onCell x c)) (mesh.onCell w c) = cellForm add mesh c x w := by
  unfold FEM.alphaVolume cellForm integrate
  dsimp only
  rw [tested_flatMap]
  congr 1
  refine List.map_congr_left ?_
  rintro ⟨p, wt⟩ _
  rw [tested_forEach]
  have ht : FEM.tensorAt (mesh.geo c) (mesh.par c) p = tensor (mesh.geo c) (mesh.par c) p := rfl
  have hv : (∑ i, mesh.onCell x c i * (mesh.lfs c).phi p i) = value (mesh.lfs c) (mesh.onCell x c) p := rfl
  have hgr : (∑ i, mesh.onCell x c i • ((mesh.geo c).jacobianInverseTransposed p *ᵥ (mesh.lfs c).js p i)) =
    gradient (mesh.geo c) (mesh.lfs c) (mesh.onCell x c) p := rfl
  dsimp only
  rw [ht, hv, hgr]
  generalize hF : wt * (mesh.geo c).integrationElement p = F
  generalize mesh.onCell w c = y
  have : ∀ i, y i * (((tensor (mesh.geo c) (mesh.par c) p *ᵥ gradient (mesh.geo c) (mesh.lfs c) (mesh.onCell x c) p) ⬝ᵥ
        ((mesh.geo c).jacobianInverseTransposed p *ᵥ (mesh.lfs c).js p i)
        - value (mesh.lfs c) (mesh.onCell x c) p * ((mesh.par c).b p ⬝ᵥ ((mesh.geo c).jacobianInverseTransposed p *ᵥ (mesh.lfs c).js p i))
        + ((mesh.par c).c p * value (mesh.lfs c) (mesh.onCell x c) p - (mesh.par c).f p) * (mesh.lfs c).phi p i) * F)
      = y i * (F * ((tensor (mesh.geo c) (mesh.par c) p *ᵥ gradient (mesh.geo c) (mesh.lfs c) (mesh.onCell x c) p) ⬝ᵥ
          ((mesh.geo c).jacobianInverseTransposed p *ᵥ (mesh.lfs c).js p i)))
        + y i * ((-(F * value (mesh.lfs c) (mesh.onCell x c) p)) *
          ((mesh.par c).b p ⬝ᵥ ((mesh.geo c).jacobianInverseTransposed p *ᵥ (mesh.lfs c).js p i)))
        + y i * ((F * ((mesh.par c).c p * value (mesh.lfs c) (mesh.onCell x c) p - (mesh.par c).f p)) * (mesh.lfs c).phi p i) := fun i => by ring
  simp only [this, Finset.sum_add_distrib, sum_gradient, sum_value]
  ring

theorem face_form (add : Int) (mesh : Mesh K P Q I d n) (F : DG.BoundaryFace K P Q d N) (x w : I → K) :
    tested (alphaBoundary add F.geo (mesh.par F.inside) F.par (mesh.lfs F.inside) (mesh.onCell x F.inside)) (mesh.onCell w F.inside) =
      faceForm add mesh F x w := by
  unfold FEM.alphaBoundary faceForm integrateFace
  cases hb : F.par.bctype F.geo.center with
  | dirichlet => simp [tested, total]
  | none =>
    simp only [reduceCtorEq, if_false, List.append_nil]
    rw [tested_flatMap]
    simp [tested, total]
  | neumann =>
    simp only [reduceCtorEq, if_false, if_true, List.append_nil]
    rw [tested_flatMap]
    congr 1
    refine List.map_congr_left ?_
    rintro ⟨q, wt⟩ _
    rw [tested_forEach]
    have : ∀ i, mesh.onCell w F.inside i * (F.par.j q * (mesh.lfs F.inside).phi (F.geo.inInside q) i * (wt * F.geo.integrationElement q)) =
        mesh.onCell w F.inside i * ((wt * F.geo.integrationElement q * F.par.j q) * (mesh.lfs F.inside).phi (F.geo.inInside q) i) := fun i => by ring
    simp only [this, sum_value]
    ring
  | outflow =>
    simp only [reduceCtorEq, if_false, if_true, List.nil_append]
    rw [tested_flatMap]
    congr 1
    refine List.map_congr_left ?_
    rintro ⟨q, wt⟩ _
    rw [tested_forEach]
    have hv : (∑ i, mesh.onCell x F.inside i * (mesh.lfs F.inside).phi (F.geo.inInside q) i) =
      value (mesh.lfs F.inside) (mesh.onCell x F.inside) (F.geo.inInside q) := rfl
    dsimp only
    rw [hv]
    generalize ((mesh.par F.inside).b (F.geo.inInside q) ⬝ᵥ F.geo.unitOuterNormal q) *
      value (mesh.lfs F.inside) (mesh.onCell x F.inside) (F.geo.inInside q) + F.par.o q = a
    have : ∀ i, mesh.onCell w F.inside i * (a * (mesh.lfs F.inside).phi (F.geo.inInside q) i * (wt * F.geo.integrationElement q)) =
        mesh.onCell w F.inside i * ((wt * F.geo.integrationElement q * a) * (mesh.lfs F.inside).phi (F.geo.inInside q) i) := fun i => by ring
    simp only [this, sum_value]
    ring

variable [DecidableEq I]

theorem form_weak (add : Int) (mesh : Mesh K P Q I d n) (x w : I → K) : form (meshParts add mesh) x w = weakForm add mesh x w := by
  unfold form meshParts weakForm
  rw [List.map_append, List.sum_append, List.map_map, List.map_map]
  congr 1
  · rw [← List.sum_ofFn, List.ofFn_eq_map]
    congr 1
    refine List.map_congr_left fun c _ => ?_
    rw [← cell_form]
    exact ofCalls_tested _ _ _ _ x w
  · congr 1
    refine List.map_congr_left fun F _ => ?_
    rw [← face_form]
    exact ofCalls_tested _ _ _ _ x w

theorem parts_affine (add : Int) (mesh : Mesh K P Q I d n) (h : ∀ F ∈ mesh.boundary, F.par.bctype F.geo.center ≠ .none) :
    ∀ p ∈ meshParts add mesh, Affine p (p.jacobian fun _ => 0) (p.residual fun _ => 0) := by
  intro p hp
  unfold meshParts at hp
  rcases List.mem_append.mp hp with hp | hp
  · obtain ⟨c, -, rfl⟩ := List.mem_map.mp hp
    exact ofCalls_affine _ _ _ _ (fem_volume add (mesh.geo c) (mesh.par c) (mesh.lfs c)).affine
  · obtain ⟨F, hF, rfl⟩ := List.mem_map.mp hp
    exact ofCalls_affine _ _ _ _ (fem_boundary add F.geo (mesh.par F.inside) F.par (mesh.lfs F.inside) (h F hF))

theorem pattern_valid (mesh : Mesh K P Q I d n) : ∀ q ∈ meshPattern mesh, Assembly.PatternPart.Valid q := by
  intro q hq l hl
  obtain ⟨c, -, rfl⟩ := List.mem_map.mp hq
  simp only [fullVolumePattern, List.mem_flatMap, List.mem_map, List.mem_range] at hl
  obtain ⟨i, hi, j, hj, rfl⟩ := hl
  exact ⟨hi, hj⟩

theorem linked (mesh : Mesh K P Q I d n) (c : Fin N) (i j : Fin (n c)) :
    ∃ q ∈ meshPattern mesh, ∃ l ∈ q.links, q.v l.1 = mesh.dof c i ∧ q.u l.2 = mesh.dof c j := by
  refine ⟨_, List.mem_map.mpr ⟨c, List.mem_finRange c, rfl⟩, (i, j), ?_, ?_, ?_⟩
  · simp only [fullVolumePattern, List.mem_flatMap, List.mem_map, List.mem_range]
    exact ⟨i, i.isLt, j, j.isLt, rfl⟩
  · simp [fullVolumePattern]
  · simp [fullVolumePattern]

theorem pattern_fits (add : Int) (t : Trafo I K) (mesh : Mesh K P Q I d n) (h : ConstrainedInCells t mesh) :
    PatternFits t (meshPattern mesh) (meshParts add mesh) where
  valid := pattern_valid mesh
  covered x p hp i hi j hj _ := by
    obtain ⟨p, hm, rfl⟩ := List.mem_map.mp hp
    clear hp
    have key : ∃ (c : Fin N) (res : (Fin (n c) → K) → Calls (Fin (n c)) K) (jac : (Fin (n c) → K) → Calls (Fin (n c) × Fin (n c)) K),
        p = Part.ofCalls (Equiv.refl _) (mesh.dof c) res jac := by
      unfold meshParts at hm
      rcases List.mem_append.mp hm with hm | hm
      · obtain ⟨c, -, rfl⟩ := List.mem_map.mp hm
        exact ⟨c, _, _, rfl⟩
      · obtain ⟨F, -, rfl⟩ := List.mem_map.mp hm
        exact ⟨F.inside, _, _, rfl⟩
    obtain ⟨c, res, jac, rfl⟩ := key
    obtain ⟨q, hq, l, hl, h1, h2⟩ := linked mesh c ⟨i, hi⟩ ⟨j, hj⟩
    refine ⟨q, hq, l, hl, ?_, ?_⟩
    · rw [h1]
      change _ = if h : i < n c then mesh.dof c _ else _
      rw [dif_pos (show i < n c from hi)]
      rfl
    · rw [h2]
      change _ = if h : j < n c then mesh.dof c _ else _
      rw [dif_pos (show j < n c from hj)]
      rfl
  diagonal k hk := by
    obtain ⟨c, i, hi⟩ := h k hk
    obtain ⟨q, hq, l, hl, h1, h2⟩ := linked mesh c i i
    exact ⟨q, hq, l, hl, h1.trans hi, h2.trans hi⟩

end fem

section energy
variable {K P Q I : Type} [Field K] [LinearOrder K] [IsStrictOrderedRing K] [Inhabited I] [DecidableEq I] {d N : Nat} {n : Fin N → Nat}

theorem onCell_zero (mesh : Mesh K P Q I d n) (c : Fin N) : mesh.onCell (fun _ => 0) c = fun _ => 0 := rfl

/-- The bilinear part of the form of a cell. -/
theorem cell_bilinear (add : Int) (mesh : Mesh K P Q I d n) (c : Fin N) (x w : I → K) :
    cellForm add mesh c x w - cellForm add mesh c (fun _ => 0) w =
      volumeForm (mesh.geo c) (mesh.par c) (mesh.lfs c) (add + 2 * (mesh.lfs c).order) (mesh.onCell x c) (mesh.onCell w c) := by
  unfold cellForm volumeForm
  rw [DGMesh.integrate_sub']
  refine integrate_congr _ _ _ _ fun q _ => ?_
  simp only [onCell_zero, value_zero, gradient_zero, mulVec_zero, zero_dotProduct]
  ring

/-- The bilinear part of the form of a face. -/
def faceBilinear (add : Int) (mesh : Mesh K P Q I d n) (F : DG.BoundaryFace K P Q d N) (x w : I → K) : K :=
  integrateFace F.geo (add + 2 * (mesh.lfs F.inside).order) fun q =>
    if F.par.bctype F.geo.center = .outflow then
      faceFlux mesh F q * value (mesh.lfs F.inside) (mesh.onCell x F.inside) (F.geo.inInside q) *
        value (mesh.lfs F.inside) (mesh.onCell w F.inside) (F.geo.inInside q)
    else 0

theorem face_bilinear (add : Int) (mesh : Mesh K P Q I d n) (F : DG.BoundaryFace K P Q d N) (x w : I → K) :
    faceForm add mesh F x w - faceForm add mesh F (fun _ => 0) w = faceBilinear add mesh F x w := by
  unfold faceForm faceBilinear faceFlux
  rw [integrateFace_sub]
  refine integrateFace_congr _ _ _ _ fun q _ => ?_
  simp only [onCell_zero, value_zero]
  cases F.par.bctype F.geo.center <;> simp only [reduceCtorEq, if_false, if_true] <;> ring

theorem bilinear_eq (add : Int) (mesh : Mesh K P Q I d n) (x w : I → K) :
    bilinear (meshParts add mesh) x w =
      ∑ c, volumeForm (mesh.geo c) (mesh.par c) (mesh.lfs c) (add + 2 * (mesh.lfs c).order) (mesh.onCell x c) (mesh.onCell w c) +
        (mesh.boundary.map fun F => faceBilinear add mesh F x w).sum := by
  unfold bilinear
  rw [form_weak, form_weak]
  unfold weakForm
  have h1 : ∑ c, cellForm add mesh c x w - ∑ c, cellForm add mesh c (fun _ => 0) w =
      ∑ c, volumeForm (mesh.geo c) (mesh.par c) (mesh.lfs c) (add + 2 * (mesh.lfs c).order) (mesh.onCell x c) (mesh.onCell w c) := by
    rw [← Finset.sum_sub_distrib]
    exact Finset.sum_congr rfl fun c _ => cell_bilinear add mesh c x w
  have h2 : ∀ l : List (DG.BoundaryFace K P Q d N), (l.map fun F => faceForm add mesh F x w).sum -
      (l.map fun F => faceForm add mesh F (fun _ => 0) w).sum = (l.map fun F => faceBilinear add mesh F x w).sum := by
    intro l
    induction l with
    | nil => simp
    | cons F l ih =>
      simp only [List.map_cons, List.sum_cons]
      rw [← ih, ← face_bilinear]
      ring
  rw [← h1, ← h2]
  ring

theorem energy_nonneg (add : Int) (mesh : Mesh K P Q I d n) (h : Dissipative add mesh) (w : I → K) : 0 ≤ meshEnergy add mesh w := by
  unfold meshEnergy
  refine Finset.sum_nonneg fun c _ => integrate_nonneg _ _ (h.weights c) _ fun p _ => ?_
  refine add_nonneg ?_ (mul_nonneg (h.reaction c p.1) (sq_nonneg _))
  unfold tensor
  split <;> exact h.diffusion c _ _

theorem face_flow (add : Int) (t : Trafo I K) (mesh : Mesh K P Q I d n) (h : Dissipative add mesh) (hb : Incompressible add t mesh) (w : I → K)
    (hw : Homogeneous t w) (F : DG.BoundaryFace K P Q d N) (hF : F ∈ mesh.boundary) :
    integrateFace F.geo (add + 2 * (mesh.lfs F.inside).order) (fun q =>
      faceFlux mesh F q / 2 * value (mesh.lfs F.inside) (mesh.onCell w F.inside) (F.geo.inInside q) ^ 2) ≤ faceBilinear add mesh F w w := by
  unfold faceBilinear
  refine DGMesh.integrateFace_mono' _ _ (h.faceWeights F hF) _ _ fun q hq => ?_
  have hq' := hb.boundary F hF q hq
  have hc := h.conditions F hF
  have hs := sq_nonneg (value (mesh.lfs F.inside) (mesh.onCell w F.inside) (F.geo.inInside q.1))
  cases hbc : F.par.bctype F.geo.center with
  | none => exact absurd hbc hc
  | dirichlet =>
    rw [hbc] at hq'
    simp only [reduceCtorEq, if_false]
    rw [hq' w hw]
    simp
  | neumann =>
    rw [hbc] at hq'
    simp only [reduceCtorEq, if_false]
    have := mul_nonneg (neg_nonneg.mpr hq') hs
    linarith
  | outflow =>
    rw [hbc] at hq'
    simp only [if_true]
    have := mul_nonneg hq' hs
    nlinarith

theorem coercive (add : Int) (t : Trafo I K) (mesh : Mesh K P Q I d n) (h : Dissipative add mesh) (hb : Incompressible add t mesh) (w : I → K)
    (hw : Homogeneous t w) : meshEnergy add mesh w ≤ bilinear (meshParts add mesh) w w := by
  rw [bilinear_eq]
  have h1 : ∑ c, volumeForm (mesh.geo c) (mesh.par c) (mesh.lfs c) (add + 2 * (mesh.lfs c).order) (mesh.onCell w c) (mesh.onCell w c) =
      meshEnergy add mesh w - ∑ c, integrate (mesh.geo c) (add + 2 * (mesh.lfs c).order) (fun p => value (mesh.lfs c) (mesh.onCell w c) p *
      ((mesh.par c).b p ⬝ᵥ gradient (mesh.geo c) (mesh.lfs c) (mesh.onCell w c) p)) := by
    unfold meshEnergy
    rw [← Finset.sum_sub_distrib]
    refine Finset.sum_congr rfl fun c _ => ?_
    unfold volumeForm
    rw [DGMesh.integrate_sub']
    refine integrate_congr _ _ _ _ fun q _ => ?_
    ring
  rw [h1, hb.divergence w hw]
  have h2 : ∀ l : List (DG.BoundaryFace K P Q d N), (∀ F ∈ l, F ∈ mesh.boundary) →
      (l.map fun F => integrateFace F.geo (add + 2 * (mesh.lfs F.inside).order) fun q =>
        faceFlux mesh F q / 2 * value (mesh.lfs F.inside) (mesh.onCell w F.inside) (F.geo.inInside q) ^ 2).sum ≤
      (l.map fun F => faceBilinear add mesh F w w).sum := by
    intro l hl
    induction l with
    | nil => simp
    | cons F l ih =>
      have a := face_flow add t mesh h hb w hw F (hl F List.mem_cons_self)
      have b := ih fun G hG => hl G (List.mem_cons_of_mem _ hG)
      simp only [List.map_cons, List.sum_cons]
      linarith
  have := h2 mesh.boundary fun _ h => h
  linarith

theorem regular (add : Int) (t : Trafo I K) (mesh : Mesh K P Q I d n) (h : Elliptic add t mesh) (hb : Incompressible add t mesh) :
    Regular t (meshParts add mesh) := by
  intro y hy hw
  have h1 := coercive add t mesh h.toDissipative hb y hy
  rw [hw y hy] at h1
  exact h.definite y hy (le_antisymm h1 (energy_nonneg add mesh h.toDissipative y))

theorem galerkin_iff (add : Int) (t : Trafo I K) (mesh : Mesh K P Q I d n) (x : I → K) : Galerkin t (meshParts add mesh) x ↔ Solution add t mesh x := by
  unfold Galerkin Solution
  simp only [form_weak]

theorem integrate_lin2 (geo : CellGeo K P d) (order : Int) (f g : P → K) (a : K) :
    integrate geo order f + a * integrate geo order g = integrate geo order fun q => f q + a * g q := by
  unfold integrate
  induction geo.quadratureRule order with
  | nil => simp
  | cons q l ih =>
    simp only [List.map_cons, List.sum_cons, ← ih]
    ring

theorem integrateFace_lin2 (geo : FaceGeo K P Q d) (order : Int) (f g : Q → K) (a : K) :
    integrateFace geo order f + a * integrateFace geo order g = integrateFace geo order fun q => f q + a * g q := by
  unfold integrateFace
  induction geo.quadratureRule order with
  | nil => simp
  | cons q l ih =>
    simp only [List.map_cons, List.sum_cons, ← ih]
    ring

theorem energy_potential (add : Int) (mesh : Mesh K P Q I d n) (hb : ∀ c p, (mesh.par c).b p = 0) (x : I → K) :
    energy (meshParts add mesh) x = potential add mesh x := by
  unfold energy
  rw [bilinear_eq, form_weak]
  unfold weakForm potential
  rw [mul_add, Finset.mul_sum]
  have h1 : ∑ c, volumeForm (mesh.geo c) (mesh.par c) (mesh.lfs c) (add + 2 * (mesh.lfs c).order) (mesh.onCell x c) (mesh.onCell x c) +
      ∑ c, 2 * cellForm add mesh c (fun _ => 0) x = ∑ c, integrate (mesh.geo c) (add + 2 * (mesh.lfs c).order) (fun p =>
    (tensor (mesh.geo c) (mesh.par c) p *ᵥ gradient (mesh.geo c) (mesh.lfs c) (mesh.onCell x c) p) ⬝ᵥ
      gradient (mesh.geo c) (mesh.lfs c) (mesh.onCell x c) p + (mesh.par c).c p * value (mesh.lfs c) (mesh.onCell x c) p ^ 2 -
      2 * (mesh.par c).f p * value (mesh.lfs c) (mesh.onCell x c) p) := by
    rw [← Finset.sum_add_distrib]
    refine Finset.sum_congr rfl fun c _ => ?_
    unfold volumeForm cellForm
    rw [integrate_lin2]
    refine integrate_congr _ _ _ _ fun q _ => ?_
    simp only [onCell_zero, value_zero, gradient_zero, mulVec_zero, zero_dotProduct, hb]
    ring
  have h2 : ∀ l : List (DG.BoundaryFace K P Q d N), (l.map fun F => faceBilinear add mesh F x x).sum +
      2 * (l.map fun F => faceForm add mesh F (fun _ => 0) x).sum =
      (l.map fun F => facePotential add mesh F x).sum := by
    intro l
    induction l with
    | nil => simp
    | cons F l ih =>
      have hF : faceBilinear add mesh F x x + 2 * faceForm add mesh F (fun _ => 0) x =
          facePotential add mesh F x := by
        unfold faceBilinear faceForm faceFlux facePotential
        rw [integrateFace_lin2]
        refine integrateFace_congr _ _ _ _ fun q _ => ?_
        simp only [onCell_zero, value_zero, hb]
        cases F.par.bctype F.geo.center <;> simp only [reduceCtorEq, if_false, if_true, zero_dotProduct] <;> ring
      simp only [List.map_cons, List.sum_cons]
      rw [← ih]
      linear_combination hF
  rw [← h1, ← h2]
  ring

theorem bilinear_symm (add : Int) (mesh : Mesh K P Q I d n) (hb : ∀ c p, (mesh.par c).b p = 0)
    (hA : ∀ c p, ((mesh.par c).A p).transpose = (mesh.par c).A p) (x w : I → K) :
    bilinear (meshParts add mesh) x w = bilinear (meshParts add mesh) w x := by
  rw [bilinear_eq, bilinear_eq]
  congr 1
  · refine Finset.sum_congr rfl fun c _ => integrate_congr _ _ _ _ fun q _ => ?_
    have ht : (tensor (mesh.geo c) (mesh.par c) q.1).transpose = tensor (mesh.geo c) (mesh.par c) q.1 := by
      unfold tensor
      split <;> exact hA c _
    have : ∀ u v : Fin d → K, (tensor (mesh.geo c) (mesh.par c) q.1 *ᵥ u) ⬝ᵥ v = (tensor (mesh.geo c) (mesh.par c) q.1 *ᵥ v) ⬝ᵥ u := by
      intro u v
      rw [dotProduct_comm, Matrix.dotProduct_mulVec, ← Matrix.mulVec_transpose, ht]
    simp only [hb, zero_dotProduct, mul_zero, sub_zero]
    rw [this]
    ring
  · congr 1
    refine List.map_congr_left fun F _ => integrateFace_congr _ _ _ _ fun q _ => ?_
    unfold faceFlux
    simp only [hb, zero_dotProduct, zero_mul]

end energy

end Verif.FEMMesh
