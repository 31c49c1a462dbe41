import Verif.Spec.NonlinearMesh
import Verif.Props.NonlinearFEM
import Verif.Proofs.NewtonStep
import Verif.Proofs.DGMesh
/-
Helper lemmas for C250: the nonlinear operator on a mesh.
-/
set_option linter.unusedSectionVars false
namespace Verif.NonlinearMesh
open ConstrainedSolve Constraints Assembly LocalOp LocalOp.Spec LocalOp.NonlinearFEM Matrix FEMMesh TransientSolve
open OneStep (Kind Setting)

section
variable {K P Q I : Type} [Field K] [LinearOrder K] [Inhabited I] {d N : Nat} {n : Fin N → Nat}

theorem integrate_eq (geo : CellGeo K P d) (order : Int) (g : P → K) : quadrature (geo.quadratureRule order) geo.integrationElement g = integrate geo order g := by
  unfold quadrature integrate
  congr 1

theorem integrateFace_eq (geo : FaceGeo K P Q d) (order : Int) (g : Q → K) :
    quadrature (geo.quadratureRule order) geo.integrationElement g = integrateFace geo order g := by
  unfold quadrature integrateFace
  congr 1

theorem cell_form (intorder : Int) (mesh : Mesh K P Q I d n) (c : Fin N) (hw : ∀ p u, (mesh.par c).w p u = u) (x w : I → K) :
    tested (alphaVolume intorder (mesh.par c) (mesh.geo c) (mesh.lfs c) fun i => x (mesh.dof c i)) (fun i => w (mesh.dof c i)) = cellForm intorder mesh c x w := by
  have h := nonlinear_volume intorder (mesh.par c) (mesh.geo c) (mesh.lfs c) (mesh.onCell x c) (mesh.onCell w c)
  refine h.trans ?_
  rw [integrate_eq]
  simp only [hw]
  rfl

theorem face_form (intorder : Int) (mesh : Mesh K P Q I d n) (F : Face K P Q d N) (hw : ∀ p u, F.par.w p u = u) (x w : I → K) :
    tested (alphaBoundary intorder F.par F.geo (mesh.lfs F.inside) fun i => x (mesh.dof F.inside i)) (fun i => w (mesh.dof F.inside i)) =
      faceForm intorder mesh F x w := by
  have h := (C171_identity intorder F.par (mesh.geo F.inside) F.geo (mesh.lfs F.inside) (mesh.onCell x F.inside) (mesh.onCell w F.inside) hw).2
  unfold NonlinearNeumann at h
  refine h.trans ?_
  rw [integrateFace_eq]
  rfl

theorem pattern_valid (mesh : Mesh K P Q I d n) : ∀ q ∈ meshPattern mesh, Assembly.PatternPart.Valid q := by
  intro q hq l hl
  obtain ⟨c, -, rfl⟩ := List.mem_map.mp hq
  simp only [fullVolumePattern, List.mem_flatMap, List.mem_map, List.mem_range] at hl
  obtain ⟨i, hi, j, hj, rfl⟩ := hl
  exact ⟨hi, hj⟩

theorem linked (mesh : Mesh K P Q I d n) (c : Fin N) (i j : Fin (n c)) :
    ∃ q ∈ meshPattern mesh, ∃ l ∈ q.links, q.v l.1 = mesh.dof c i ∧ q.u l.2 = mesh.dof c j := by
  refine ⟨_, List.mem_map.mpr ⟨c, List.mem_finRange c, rfl⟩, (i, j), ?_, ?_, ?_⟩
  · simp only [fullVolumePattern, List.mem_flatMap, List.mem_map, List.mem_range]
    exact ⟨i, i.isLt, j, j.isLt, rfl⟩
  · simp [fullVolumePattern]
  · simp [fullVolumePattern]

variable [DecidableEq I]

theorem fits_of (t : Trafo I K) (mesh : Mesh K P Q I d n) (h : ConstrainedInCells t mesh.dof) (parts : List (Part I K))
    (hparts : ∀ p ∈ parts, ∃ (c : Fin N) (res : (Fin (n c) → K) → Calls (Fin (n c)) K) (jac : (Fin (n c) → K) → Calls (Fin (n c) × Fin (n c)) K),
        p = Part.ofCalls (Equiv.refl _) (mesh.dof c) res jac) : PatternFits t (meshPattern mesh) parts where
  valid := pattern_valid mesh
  covered x p hp i hi j hj _ := by
    obtain ⟨p, hm, rfl⟩ := List.mem_map.mp hp
    clear hp
    obtain ⟨c, res, jac, rfl⟩ := hparts p hm
    obtain ⟨q, hq, l, hl, h1, h2⟩ := linked mesh c ⟨i, hi⟩ ⟨j, hj⟩
    refine ⟨q, hq, l, hl, ?_, ?_⟩
    · rw [h1]
      change _ = if h : i < n c then mesh.dof c _ else _
      rw [dif_pos (show i < n c from hi)]
      rfl
    · rw [h2]
      change _ = if h : j < n c then mesh.dof c _ else _
      rw [dif_pos (show j < n c from hj)]
      rfl
  diagonal k hk := by
    obtain ⟨c, i, hi⟩ := h k hk
    obtain ⟨q, hq, l, hl, h1, h2⟩ := linked mesh c i i
    exact ⟨q, hq, l, hl, h1.trans hi, h2.trans hi⟩

theorem pattern_fits (eps : K) (intorder : Int) (t : Trafo I K) (mesh : Mesh K P Q I d n) (h : ConstrainedInCells t mesh.dof) :
    PatternFits t (meshPattern mesh) (meshParts eps intorder mesh) := by
  refine fits_of t mesh h _ fun p hm => ?_
  unfold meshParts at hm
  rcases List.mem_append.mp hm with hm | hm
  · obtain ⟨c, -, rfl⟩ := List.mem_map.mp hm
    exact ⟨c, _, _, rfl⟩
  · obtain ⟨F, -, rfl⟩ := List.mem_map.mp hm
    exact ⟨F.inside, _, _, rfl⟩

theorem mass_fits (o : Int) (sc : K) (t : Trafo I K) (pb : Transient K P Q I d n) (τ : K) (h : ConstrainedInCells t pb.dof) :
    PatternFits t pb.pattern ((List.finRange N).map (massPart o sc pb)) := by
  refine fits_of t (pb.at τ) h _ fun p hm => ?_
  obtain ⟨c, -, rfl⟩ := List.mem_map.mp hm
  exact ⟨c, _, _, rfl⟩

theorem parts_spatial (eps : K) (intorder : Int) (pb : Transient K P Q I d n) (τ : K) :
    partsAt (pb.spatial eps intorder) pb.trace τ = meshParts eps intorder (pb.at τ) := by
  unfold partsAt Transient.trace meshParts
  rw [List.filterMap_append, List.filterMap_map, List.filterMap_map]
  congr 1
  · rw [← filterMap_range]
    rfl
  · have : (pb.at τ).boundary = pb.boundary.map fun F => F τ := rfl
    rw [this, List.map_map]
    exact filterMap_getElem (fun F => facePart eps intorder (pb.at τ) (F τ)) pb.boundary

theorem parts_temporal (o : Int) (sc : K) (pb : Transient K P Q I d n) (τ : K) :
    partsAt (pb.temporal o sc) pb.trace τ = (List.finRange N).map (massPart o sc pb) := by
  unfold partsAt Transient.trace
  rw [List.filterMap_append, List.filterMap_map, List.filterMap_map]
  have h2 : ∀ l : List Nat, l.filterMap ((fun c : Kind × Nat => pb.temporal o sc c.1 c.2 τ) ∘ fun F => (Kind.uvBoundary, F)) = [] := by
    intro l
    rw [List.filterMap_eq_nil_iff]
    intro a _
    rfl
  rw [h2, List.append_nil, ← filterMap_range]
  rfl

/-- The part of the problem that the mass operator sees, as a linear problem. -/
def asFEM (pb : Transient K P Q I d n) : FEM.Transient K P Q I d n where
  geo := pb.geo
  lfs := pb.lfs
  dof := pb.dof
  par _ _ := ⟨false, fun _ _ _ => 0, fun _ _ => 0, fun _ => 0, fun _ => 0, fun _ => 0⟩
  boundary := []

theorem mass_eq (o : Int) (sc : K) (pb : Transient K P Q I d n) (x w : I → K) : massForm o sc pb x w = FEM.massForm o sc (asFEM pb) x w := rfl

theorem massPart_eq (o : Int) (sc : K) (pb : Transient K P Q I d n) : massPart o sc pb = FEM.massPart o sc (asFEM pb) := rfl

theorem form_mass (o : Int) (sc : K) (pb : Transient K P Q I d n) (x w : I → K) :
    form ((List.finRange N).map (massPart o sc pb)) x w = massForm o sc pb x w := TransientSolve.form_mass o sc (asFEM pb) x w

end

section
variable {K P Q I : Type} [Field K] [LinearOrder K] [IsStrictOrderedRing K] [Inhabited I] [DecidableEq I] {d N : Nat} {n : Fin N → Nat}

theorem total_numerical {m : Nat} (eps : K) (alpha : (Fin m → K) → Calls (Fin m) K) (x : Fin m → K) (i j : Fin m) :
    total (numericalJacobian eps alpha x) (i, j) =
      (total (alpha (Function.update x j (x j + NumericalJacobian.delta eps (x j)))) i - total (alpha x) i) / NumericalJacobian.delta eps (x j) := by
  have h := total_forEach₂ (fun i j => (total (alpha (Function.update x j (x j + NumericalJacobian.delta eps (x j)))) i - total (alpha x) i) /
    NumericalJacobian.delta eps (x j)) i j
  exact h

theorem delta_pos (eps u : K) (h : 0 < eps) : 0 < NumericalJacobian.delta eps u := by
  unfold NumericalJacobian.delta
  split
  · exact mul_pos h (by linarith)
  · exact mul_pos h (by linarith)

theorem form_weak (eps : K) (intorder : Int) (mesh : Mesh K P Q I d n) (hw : ∀ c p u, (mesh.par c).w p u = u) (hF : ∀ F ∈ mesh.boundary, ∀ p u, F.par.w p u = u)
    (x w : I → K) : form (meshParts eps intorder mesh) x w = weakForm intorder mesh x w := by
  unfold form meshParts weakForm
  rw [List.map_append, List.sum_append, List.map_map, List.map_map]
  congr 1
  · rw [← List.sum_ofFn, List.ofFn_eq_map]
    congr 1
    refine List.map_congr_left fun c _ => ?_
    rw [← cell_form intorder mesh c (hw c)]
    exact ofCalls_tested _ _ _ _ x w
  · congr 1
    refine List.map_congr_left fun F hm => ?_
    rw [← face_form intorder mesh F (hF F hm)]
    exact ofCalls_tested _ _ _ _ x w

theorem value_diff (mesh : Mesh K P Q I d n) (c : Fin N) (x y : I → K) (p : P) :
    value (mesh.lfs c) (mesh.onCell (fun k => x k - y k) c) p = value (mesh.lfs c) (mesh.onCell x c) p - value (mesh.lfs c) (mesh.onCell y c) p :=
  DGMesh.value_sub' (mesh.lfs c) (mesh.onCell x c) (mesh.onCell y c) p

theorem gradient_diff (mesh : Mesh K P Q I d n) (c : Fin N) (x y : I → K) (p : P) :
    gradient (mesh.geo c) (mesh.lfs c) (mesh.onCell (fun k => x k - y k) c) p =
      gradient (mesh.geo c) (mesh.lfs c) (mesh.onCell x c) p - gradient (mesh.geo c) (mesh.lfs c) (mesh.onCell y c) p :=
  DGMesh.gradient_sub' (mesh.geo c) (mesh.lfs c) (mesh.onCell x c) (mesh.onCell y c) p

/-- The form of a semilinear problem grows at least like the energy. -/
theorem monotone (intorder : Int) (mesh : Mesh K P Q I d n) (h : Semilinear intorder mesh) (x y : I → K) :
    meshEnergy intorder mesh (fun k => x k - y k) ≤
      weakForm intorder mesh x (fun k => x k - y k) - weakForm intorder mesh y fun k => x k - y k := by
  have hcell : ∀ c, (integrate (mesh.geo c) intorder fun p =>
      ((mesh.par c).D (mesh.geo c).center *ᵥ ((mesh.par c).v p 0 • gradient (mesh.geo c) (mesh.lfs c) (mesh.onCell (fun k => x k - y k) c) p)) ⬝ᵥ
        gradient (mesh.geo c) (mesh.lfs c) (mesh.onCell (fun k => x k - y k) c) p) ≤
      cellForm intorder mesh c x (fun k => x k - y k) - cellForm intorder mesh c y (fun k => x k - y k) := by
    intro c
    unfold cellForm
    rw [← sub_nonneg, DGMesh.integrate_sub', DGMesh.integrate_sub']
    refine integrate_nonneg _ _ (h.weights c) _ fun q _ => ?_
    have hs := h.source c q.1 (value (mesh.lfs c) (mesh.onCell x c) q.1) (value (mesh.lfs c) (mesh.onCell y c) q.1)
    dsimp only
    rw [h.diffusion c q.1 (value (mesh.lfs c) (mesh.onCell x c) q.1) 0, h.diffusion c q.1 (value (mesh.lfs c) (mesh.onCell y c) q.1) 0,
      h.convection c q.1 (value (mesh.lfs c) (mesh.onCell x c) q.1) 0, h.convection c q.1 (value (mesh.lfs c) (mesh.onCell y c) q.1) 0,
      value_diff, gradient_diff]
    simp only [smul_sub, mulVec_sub, sub_dotProduct]
    linarith
  have hface : ∀ F ∈ mesh.boundary, 0 ≤ faceForm intorder mesh F x (fun k => x k - y k) - faceForm intorder mesh F y (fun k => x k - y k) := by
    intro F hF
    unfold faceForm
    rw [integrateFace_sub]
    refine integrateFace_nonneg _ _ (h.faceWeights F hF) _ fun q _ => ?_
    rw [value_diff]
    split
    · rw [sub_self]
    · have := h.outflow F hF (F.geo.inInside q.1) (value (mesh.lfs F.inside) (mesh.onCell x F.inside) (F.geo.inInside q.1))
        (value (mesh.lfs F.inside) (mesh.onCell y F.inside) (F.geo.inInside q.1))
      rwa [sub_mul] at this
  have h1 := Finset.sum_le_sum fun c (_ : c ∈ Finset.univ) => hcell c
  rw [Finset.sum_sub_distrib] at h1
  have h2 : ∀ l : List (Face K P Q d N), (∀ F ∈ l, F ∈ mesh.boundary) →
      (l.map fun F => faceForm intorder mesh F y fun k => x k - y k).sum ≤ (l.map fun F => faceForm intorder mesh F x fun k => x k - y k).sum := by
    intro l hl
    induction l with
    | nil => exact le_refl _
    | cons F l ih =>
      simp only [List.map_cons, List.sum_cons]
      have := hface F (hl F (by simp))
      have := ih fun F' hm => hl F' (by simp [hm])
      linarith
  have h3 := h2 mesh.boundary fun _ hm => hm
  unfold weakForm meshEnergy
  linarith

theorem strongly_monotone [Fintype I] (eps : K) (intorder : Int) (t : Trafo I K) (mesh : Mesh K P Q I d n) (h : Semilinear intorder mesh) (alpha : K)
    (ha : Coercive intorder t mesh alpha) : NewtonSolve.StronglyMonotone t (meshParts eps intorder mesh) alpha := by
  intro x y hx hy hd
  rw [form_weak eps intorder mesh h.identity h.faceIdentity, form_weak eps intorder mesh h.identity h.faceIdentity]
  refine le_trans (ha _ ⟨conforming_sub hx hy, fun k hk => by simp only [hd k hk, sub_self]⟩) (monotone intorder mesh h x y)

theorem evolution [Fintype I] (eps : K) (intorder o : Int) (sc : K) (t : Trafo I K) (pb : Transient K P Q I d n) (mu : K) (hc : ConstrainedInCells t pb.dof)
    (h : Parabolic intorder o sc t pb mu) : NewtonStep.Evolution t pb.pattern (pb.spatial eps intorder) (pb.temporal o sc) pb.trace mu where
  noPost _ _ := ⟨rfl, rfl⟩
  fits0 τ := by
    rw [parts_spatial]
    exact pattern_fits eps intorder t (pb.at τ) hc
  fits1 τ := by
    rw [parts_temporal]
    exact mass_fits o sc t pb τ hc
  mass τ := by
    rw [parts_temporal]
    intro x y hx hy hd
    rw [form_mass, form_mass, mass_eq, mass_eq, ← mass_sub_left]
    exact h.mass _ ⟨conforming_sub hx hy, fun k hk => by simp only [hd k hk, sub_self]⟩
  monotone τ := by
    rw [parts_spatial]
    intro x y hx hy hd
    rw [form_weak eps intorder _ (h.semilinear τ).identity (h.semilinear τ).faceIdentity, form_weak eps intorder _ (h.semilinear τ).identity (h.semilinear τ).faceIdentity]
    refine le_trans ?_ (monotone intorder (pb.at τ) (h.semilinear τ) x y)
    unfold meshEnergy
    exact Finset.sum_nonneg fun c _ => integrate_nonneg _ _ ((h.semilinear τ).weights c) _ fun p _ => h.elliptic τ c p.1 _

theorem scheme_form (eps : K) (intorder o : Int) (sc : K) (pb : Transient K P Q I d n) (hw : ∀ τ c p u, (pb.par τ c).w p u = u)
    (hF : ∀ τ, ∀ F ∈ (pb.at τ).boundary, ∀ p u, F.par.w p u = u) (S : Setting K) (x : Nat → I → K) (w : I → K) :
    stageForm S (pb.spatial eps intorder) (pb.temporal o sc) pb.trace x w = schemeForm intorder o sc pb S x w := by
  unfold stageForm schemeForm
  refine Finset.sum_congr rfl fun s _ => ?_
  rw [parts_spatial, parts_temporal, form_mass, form_weak eps intorder _ (hw _) (hF _)]

/-- The calls that give a matrix. -/
def matrixCalls {m : Nat} (v : Fin m → Fin m → K) : Calls (Fin m × Fin m) K := (List.finRange m).flatMap fun j => (List.finRange m).map fun i => ((i, j), v i j)

theorem total_matrixCalls {m : Nat} (v : Fin m → Fin m → K) (i j : Fin m) : total (matrixCalls v) (i, j) = v i j := total_forEach₂ v i j

theorem volume_affine {m : Nat} (intorder : Int) (par : Param K P Q d) (geo : CellGeo K P d) (fe : Basis K P d m) (hw : ∀ p u, par.w p u = u)
    (hv : ∀ p u u', par.v p u = par.v p u') (hq : ∀ p u u', par.q p u = par.q p u') (hf : ∃ a b : P → K, ∀ p u, par.f p u = a p + b p * u) :
    ∃ J, IsAffineWith (fun x => total (alphaVolume intorder par geo fe x)) (total J) := by
  obtain ⟨a, b, hab⟩ := hf
  refine ⟨(geo.quadratureRule intorder).flatMap fun ip => matrixCalls fun i j =>
    ((par.D geo.center *ᵥ (par.v ip.1 0 • (geo.jacobianInverseTransposed ip.1 *ᵥ fe.js ip.1 j))) ⬝ᵥ (geo.jacobianInverseTransposed ip.1 *ᵥ fe.js ip.1 i) -
      b ip.1 * fe.phi ip.1 j * fe.phi ip.1 i) * (ip.2 * geo.integrationElement ip.1), ?_⟩
  unfold alphaVolume
  refine (linearPlus_flatMap _ _ _ (fun ip i => (-(par.q ip.1 0 ⬝ᵥ (geo.jacobianInverseTransposed ip.1 *ᵥ fe.js ip.1 i)) - a ip.1 * fe.phi ip.1 i) *
    (ip.2 * geo.integrationElement ip.1)) ?_).affine
  rintro ⟨ip, wt⟩ _ x i
  have h1 : ∀ v : Fin m → K, (List.finRange m).map (fun i => (i, v i)) = forEach v := fun _ => rfl
  simp only [h1, total_forEach, applyMatrix, total_matrixCalls, hab]
  rw [hv ip _ 0, hq ip _ 0]
  simp only [hw]
  have k1 : (par.D geo.center *ᵥ (par.v ip 0 • ∑ j, x j • (geo.jacobianInverseTransposed ip *ᵥ fe.js ip j))) ⬝ᵥ (geo.jacobianInverseTransposed ip *ᵥ fe.js ip i) =
      ∑ j, (par.D geo.center *ᵥ (par.v ip 0 • (geo.jacobianInverseTransposed ip *ᵥ fe.js ip j))) ⬝ᵥ (geo.jacobianInverseTransposed ip *ᵥ fe.js ip i) * x j := by
    rw [Finset.smul_sum, mulVec_sum, sum_dotProduct]
    refine Finset.sum_congr rfl fun j _ => ?_
    rw [smul_comm, mulVec_smul, smul_dotProduct, smul_eq_mul, mul_comm]
  have k2 : b ip * (∑ j, x j * fe.phi ip j) * fe.phi ip i = ∑ j, b ip * fe.phi ip j * fe.phi ip i * x j := by
    rw [Finset.mul_sum, Finset.sum_mul]
    exact Finset.sum_congr rfl fun j _ => by ring
  have k3 : ∀ A B : Fin m → K, ∀ fac : K, ∑ j, (A j - B j) * fac * x j = (∑ j, A j * x j - ∑ j, B j * x j) * fac := by
    intro A B fac
    rw [← Finset.sum_sub_distrib, Finset.sum_mul]
    exact Finset.sum_congr rfl fun j _ => by ring
  rw [k1, k3, ← k2]
  ring

theorem boundary_affine {m : Nat} (intorder : Int) (par : Param K P Q d) (geo : FaceGeo K P Q d) (fe : Basis K P d m) (hw : ∀ p u, par.w p u = u)
    (hj : ∃ a b : P → K, ∀ p u, par.j p u = a p + b p * u) : ∃ J, IsAffineWith (fun x => total (alphaBoundary intorder par geo fe x)) (total J) := by
  obtain ⟨a, b, hab⟩ := hj
  refine ⟨(geo.quadratureRule intorder).flatMap fun ip => matrixCalls fun i j => if par.isDirichlet ip.1 then 0 else
    b (geo.inInside ip.1) * fe.phi (geo.inInside ip.1) j * fe.phi (geo.inInside ip.1) i * (ip.2 * geo.integrationElement ip.1), ?_⟩
  unfold alphaBoundary
  refine (linearPlus_flatMap _ _ _ (fun ip i => if par.isDirichlet ip.1 then 0 else
    a (geo.inInside ip.1) * fe.phi (geo.inInside ip.1) i * (ip.2 * geo.integrationElement ip.1)) ?_).affine
  rintro ⟨ip, wt⟩ _ x i
  have h1 : ∀ v : Fin m → K, (List.finRange m).map (fun i => (i, v i)) = forEach v := fun _ => rfl
  by_cases hd : par.isDirichlet ip = true
  · simp [hd, total_nil, applyMatrix, total_matrixCalls]
  · simp only [hd, if_false, Bool.false_eq_true, h1, total_forEach, applyMatrix, total_matrixCalls, hab, hw]
    have k2 : ∀ fac : K, ∑ j, b (geo.inInside ip) * fe.phi (geo.inInside ip) j * fe.phi (geo.inInside ip) i * fac * x j =
        b (geo.inInside ip) * (∑ j, x j * fe.phi (geo.inInside ip) j) * fe.phi (geo.inInside ip) i * fac := by
      intro fac
      rw [Finset.mul_sum, Finset.sum_mul, Finset.sum_mul]
      exact Finset.sum_congr rfl fun j _ => by ring
    rw [k2]
    ring

/-- The numerical Jacobian of an affine residual. -/
theorem numerical_exact {m : Nat} (eps : K) (heps : 0 < eps) (alpha : (Fin m → K) → Calls (Fin m) K) (x : Fin m → K) (J : Fin m × Fin m → K)
    (hJ : IsAffineWith (fun x => total (alpha x)) J) (i j : Fin m) : total (numericalJacobian eps alpha x) (i, j) = J (i, j) := by
  have hd := delta_pos eps (x j) heps
  have hupd : Function.update x j (x j + NumericalJacobian.delta eps (x j)) = x + Pi.single j (NumericalJacobian.delta eps (x j)) := by
    funext k
    by_cases hk : k = j
    · subst hk; simp
    · simp [hk]
  rw [total_numerical, hupd]
  have h := hJ x (Pi.single j (NumericalJacobian.delta eps (x j))) i
  dsimp only at h
  rw [h, add_sub_cancel_left]
  unfold applyMatrix
  rw [Finset.sum_eq_single j (fun k _ hk => by simp [hk]) (by simp), Pi.single_eq_same, mul_div_assoc, div_self hd.ne', mul_one]

theorem numerical_affine {m : Nat} (dof : Fin m → I) (eps : K) (heps : 0 < eps) (alpha : (Fin m → K) → Calls (Fin m) K)
    (h : ∃ J, IsAffineWith (fun x => total (alpha x)) (total J)) :
    let p := Part.ofCalls (Equiv.refl _) dof alpha (numericalJacobian eps alpha)
    Affine p (p.jacobian fun _ => 0) (p.residual fun _ => 0) := by
  obtain ⟨J, hJ⟩ := h
  have hj : ∀ x, total (numericalJacobian eps alpha x) = total J := by
    intro x
    funext q
    exact numerical_exact eps heps alpha x (total J) hJ q.1 q.2
  have hp : Part.ofCalls (Equiv.refl _) dof alpha (numericalJacobian eps alpha) = Part.ofCalls (Equiv.refl _) dof alpha fun _ => J := by
    unfold Part.ofCalls
    simp only [hj]
  rw [hp]
  exact ofCalls_affine _ dof _ _ hJ

theorem parts_affine (eps : K) (heps : 0 < eps) (intorder : Int) (mesh : Mesh K P Q I d n) (h : Semilinear intorder mesh) (ha : AffineData mesh) :
    ∀ p ∈ meshParts eps intorder mesh, Affine p (p.jacobian fun _ => 0) (p.residual fun _ => 0) := by
  intro p hp
  unfold meshParts at hp
  rcases List.mem_append.mp hp with hp | hp
  · obtain ⟨c, -, rfl⟩ := List.mem_map.mp hp
    exact numerical_affine _ eps heps _ (volume_affine intorder (mesh.par c) (mesh.geo c) (mesh.lfs c) (h.identity c) (h.diffusion c) (h.convection c) (ha.source c))
  · obtain ⟨F, hF, rfl⟩ := List.mem_map.mp hp
    exact numerical_affine _ eps heps _ (boundary_affine intorder F.par F.geo (mesh.lfs F.inside) (h.faceIdentity F hF) (ha.outflow F hF))

theorem regular [Fintype I] (eps : K) (intorder : Int) (t : Trafo I K) (mesh : Mesh K P Q I d n) (h : Semilinear intorder mesh) (alpha : K) (hα : 0 < alpha)
    (ha : Coercive intorder t mesh alpha) : Regular t (meshParts eps intorder mesh) := by
  intro y hy hw
  have h1 := hw y hy
  unfold ConstrainedSolve.bilinear at h1
  rw [form_weak eps intorder mesh h.identity h.faceIdentity, form_weak eps intorder mesh h.identity h.faceIdentity] at h1
  have h2 := monotone intorder mesh h y fun _ => 0
  simp only [sub_zero] at h2
  have h3 := ha y hy
  have h4 : ∑ k, y k ^ 2 ≤ 0 := by
    by_contra h0
    have := mul_pos hα (not_le.mp h0)
    linarith
  have h5 := (Finset.sum_eq_zero_iff_of_nonneg fun k _ => sq_nonneg (y k)).mp (le_antisymm h4 (Finset.sum_nonneg fun k _ => sq_nonneg _))
  exact fun k => pow_eq_zero_iff two_ne_zero |>.mp (h5 k (Finset.mem_univ k))

end
end Verif.NonlinearMesh
