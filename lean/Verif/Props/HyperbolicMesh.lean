import Verif.Proofs.HyperbolicMesh
import Verif.Props.Hyperbolic
import Mathlib.LinearAlgebra.Matrix.Adjugate
set_option linter.unusedSectionVars false
/-
C233: the discontinuous Galerkin operators for linear acoustics and for Maxwell's equations take energy from the discrete field, or
leave it unchanged; with the implicit Euler method the energy never grows, whatever the step sizes.
-/
namespace Verif
open LocalOp LocalOp.Spec LocalOp.Hyperbolic Matrix Verif.HyperbolicMesh

section
variable {K P Q : Type} [Field K] [LinearOrder K] [IsStrictOrderedRing K] {d n m N : Nat}

theorem acoustic_weighted (c : K) (u v : Fin (d + 1) → K) :
    weighted (Fin.cases (c ^ 2) (fun _ => 1)) u v = acousticEnergy c u v := by
  unfold weighted acousticEnergy
  rw [Fin.sum_univ_succ]
  simp

/-- **C233 (acoustics).** The residual is defined, and tested with the energy function (c²ρ, w) it is not negative: as the equation
is M x' = -r(x), the energy does not grow. -/
theorem C233_acoustics (hd : d = 1 ∨ d = 2 ∨ d = 3) {solve : Acoustics.Solve K} (hs : Solves solve) {c : K} (hc : 0 < c) (o : Int)
    (mesh : Mesh K P Q d (d + 1) n N) (hp : ProperMesh mesh) (hD : DivergenceTheorem o mesh) (par : Fin N → Acoustics.CellParam K P d)
    (hpar : ∀ i, (par i).c (mesh.geo i).center = c)
    (hB : ∀ F ∈ mesh.boundary, Passive (acousticEnergy c) (acousticNormalFlux c) (Acoustics.numericalFlux solve c c) F)
    (x : Fin N × Fin (d + 1) × Fin n → K) :
    ∃ r, Acoustics.meshResidual solve o mesh par x = some r ∧ 0 ≤ tested r fun i => (if i.2.1 = 0 then c ^ 2 else 1) * x i := by
  have he : ∀ i : Fin N × Fin (d + 1) × Fin n, (if i.2.1 = 0 then c ^ 2 else 1) = (Fin.cases (c ^ 2) (fun _ => 1) i.2.1 : K) := by
    rintro ⟨a, i, k⟩
    refine Fin.cases ?_ (fun j => ?_) i
    · simp
    · simp
  simp only [he]
  refine dissipative o mesh hp hD (e := Fin.cases (c ^ 2) (fun _ => 1))
    (T := fun j i l => acousticNormalFlux c (Pi.single j 1) (Pi.single l 1) i) ?_ (A := acousticNormalFlux c) ?_
    (Acoustics.numericalFlux solve c c) ?_ ?_ x (fun _ _ _ _ => 0) ?_ _ _ _ ?_ ?_ ?_
  · intro j i l
    refine Fin.cases ?_ (fun i => ?_) i <;> refine Fin.cases ?_ (fun l => ?_) l
    · rfl
    · by_cases hj : j = l <;> simp [acousticNormalFlux_zero, acousticNormalFlux_succ, Pi.single_apply, Fin.succ_inj, hj, eq_comm]
    · by_cases hj : j = i <;> simp [acousticNormalFlux_zero, acousticNormalFlux_succ, Pi.single_apply, Fin.succ_inj, hj, eq_comm]
    · simp [acousticNormalFlux_succ, Pi.single_apply]
  · intro v u i
    refine Fin.cases ?_ (fun i => ?_) i
    · simp [acousticNormalFlux_zero, Fin.sum_univ_succ, Pi.single_apply, Fin.succ_inj]
      exact Finset.sum_congr rfl fun j _ => by ring
    · simp [acousticNormalFlux_succ, Fin.sum_univ_succ, Pi.single_apply, Fin.succ_ne_zero]
      ring
  · intro ν hν uS uN
    simp only [acoustic_weighted]
    exact C161_acousticEnergy hd hs hc hν uS uN
  · intro F hF q u
    simp only [acoustic_weighted]
    exact hB F hF q u
  · intro i p
    simp
  · intro i
    obtain ⟨r, h1, h2⟩ := C163_acousticVolume o (mesh.geo i) (par i) (mesh.lfs i) (fun k => x (i, k)) (hp.order i)
    refine ⟨r, h1, fun a k => ?_⟩
    rw [h2, hpar]
    simp only [add_zero]
    rfl
  · intro F _
    obtain ⟨⟨r, h1, h2, h3⟩, -⟩ := C163_acousticFaces solve o F.geo (mesh.geo F.inside) (mesh.geo F.outside) (par F.inside) (par F.outside)
      (fun _ u => u) (mesh.lfs F.inside) (mesh.lfs F.outside) (fun k => x (F.inside, k)) (fun k => x (F.outside, k)) (hp.order _) (hp.order _)
    refine ⟨r, h1, fun a k => ?_, fun a k => ?_⟩
    · rw [h2, hpar, hpar]; rfl
    · rw [h3, hpar, hpar]; rfl
  · intro F _
    obtain ⟨-, r, h1, h2⟩ := C163_acousticFaces solve o F.geo (mesh.geo F.inside) (mesh.geo F.inside) (par F.inside) (par F.inside)
      F.g (mesh.lfs F.inside) (mesh.lfs F.inside) (fun k => x (F.inside, k)) (fun k => x (F.inside, k)) (hp.order _) (hp.order _)
    refine ⟨r, h1, fun a k => ?_⟩
    rw [h2, hpar]; rfl

/-- **C233 (acoustics, time stepping).** With the implicit Euler method the energy never grows, whatever the step sizes. -/
theorem C233_acoustics_euler (hd : d = 1 ∨ d = 2 ∨ d = 3) {solve : Acoustics.Solve K} (hs : Solves solve) {c : K} (hc : 0 < c) (o : Int)
    (mesh : Mesh K P Q d (d + 1) n N) (hp : ProperMesh mesh) (hD : DivergenceTheorem o mesh) (par : Fin N → Acoustics.CellParam K P d)
    (hpar : ∀ i, (par i).c (mesh.geo i).center = c)
    (hB : ∀ F ∈ mesh.boundary, Passive (acousticEnergy c) (acousticNormalFlux c) (Acoustics.numericalFlux solve c c) F)
    (dt : Nat → K) (hdt : ∀ k, 0 ≤ dt k) (x : Nat → Fin N × Fin (d + 1) × Fin n → K)
    (h : ImplicitEuler (Temporal.meshResidual o mesh) (Acoustics.meshResidual solve o mesh par) dt x) :
    Antitone fun k => meshEnergy o mesh (acousticEnergy c) (x k) := by
  refine antitone_nat_of_succ_le fun k => ?_
  have hE : (acousticEnergy c : (Fin (d + 1) → K) → (Fin (d + 1) → K) → K) = weighted (Fin.cases (c ^ 2) (fun _ => 1)) := by
    funext u v
    exact (acoustic_weighted c u v).symm
  rw [hE]
  refine euler_energy o mesh hp _ (fun i => ?_) _ (fun x => ?_) dt hdt x h k
  · refine Fin.cases ?_ (fun j => ?_) i
    · exact sq_nonneg c
    · exact zero_le_one
  · obtain ⟨r, h1, h2⟩ := C233_acoustics hd hs hc o mesh hp hD par hpar hB x
    refine ⟨r, h1, le_of_le_of_eq h2 ?_⟩
    congr 1
    funext i
    obtain ⟨a, i, k⟩ := i
    refine Fin.cases ?_ (fun j => ?_) i
    · simp
    · simp

/-- **C233 (acoustics, boundary).** The outer state 0, and the outer state that reflects the velocity at a wall, feed in no energy. -/
theorem C233_acoustics_boundary (hd : d = 1 ∨ d = 2 ∨ d = 3) {solve : Acoustics.Solve K} (hs : Solves solve) {c : K} (hc : 0 < c)
    (F : BoundaryFace K P Q d (d + 1) N) (hn : F.geo.centerUnitOuterNormal ⬝ᵥ F.geo.centerUnitOuterNormal = 1)
    (hg : (∀ q u, F.g q u = 0) ∨ ∀ q u, F.g q u = Fin.cons (u 0) fun j => -u j.succ) :
    Passive (acousticEnergy c) (acousticNormalFlux c) (Acoustics.numericalFlux solve c c) F := by
  intro q u
  rcases hg with hg | hg
  · have := C161_acousticEnergy hd hs hc hn u 0
    rw [hg]
    have z : acousticEnergy c (acousticNormalFlux c F.geo.centerUnitOuterNormal 0) 0 = 0 := by simp [acousticEnergy]
    rwa [z, zero_div, sub_zero, sub_zero] at this
  · rw [hg, acoustics_flux hd hs hc.ne' hc.ne' hn]
    refine upwind_reflects (A := acousticNormalFlux c F.geo.centerUnitOuterNormal) (R := fun u => Fin.cons (u 0) fun j => -u j.succ)
      (acousticNormalFlux_add _ _) (acousticNormalFlux_smul _ _) ?_ ?_ ?_ ?_ ?_ ?_ ?_ ?_ hc u
    · intro u v w
      simp only [acousticEnergy, Pi.add_apply, add_mul, mul_add, Finset.sum_add_distrib]
      ring
    · intro a u v
      simp only [acousticEnergy, Pi.smul_apply, smul_eq_mul, mul_add, Finset.mul_sum]
      congr 1
      · ring
      · exact Finset.sum_congr rfl fun j _ => by ring
    · intro u v
      simp only [acousticEnergy]
      congr 1
      · ring
      · exact Finset.sum_congr rfl fun j _ => by ring
    · intro u v
      simp only [acousticEnergy, acousticNormalFlux_zero, acousticNormalFlux_succ, Finset.mul_sum, Finset.sum_mul]
      rw [add_comm]
      congr 1
      · exact Finset.sum_congr rfl fun j _ => by ring
      · exact Finset.sum_congr rfl fun j _ => by ring
    · intro u
      have : 0 ≤ c ^ 2 * (u 0 * u 0) := mul_nonneg (sq_nonneg c) (mul_self_nonneg _)
      rw [acousticEnergy, mul_assoc]
      exact add_nonneg this (Finset.sum_nonneg fun j _ => mul_self_nonneg _)
    · intro u v
      simp [acousticEnergy]
    · intro u
      ext i
      refine Fin.cases ?_ (fun j => ?_) i <;> simp
    · intro u
      ext i
      refine Fin.cases ?_ (fun j => ?_) i
      · simp [acousticNormalFlux_zero]
      · simp [acousticNormalFlux_succ]

theorem maxwell_weighted (eps mu : K) (u v : Fin 6 → K) :
    weighted ![1 / eps, 1 / eps, 1 / eps, 1 / mu, 1 / mu, 1 / mu] u v = maxwellEnergy eps mu u v := by
  simp [weighted, maxwellEnergy, dPart, bPart, dotProduct, Fin.sum_univ_succ]
  ring

/-- **C233 (Maxwell).** For constant permittivity and permeability, and conductivities that are not negative: the residual is
defined, and tested with the energy function (D/ε, B/μ) it is not negative. -/
theorem C233_maxwell {sqrt : K → K} {invert : Maxwell.Invert K} (hi : Inverts invert) {eps mu : K}
    (he0 : 0 < eps) (hm0 : 0 < mu) (he : RootOf sqrt eps) (hm : RootOf sqrt mu) (hem : RootOf sqrt (eps * mu)) (o : Int)
    (mesh : Mesh K P Q 3 6 n N) (hp : ProperMesh mesh) (hD : DivergenceTheorem o mesh) (par : Fin N → Maxwell.CellParam K P)
    (hpar : ∀ i, (par i).eps (mesh.geo i).center = eps ∧ (par i).mu (mesh.geo i).center = mu ∧ 0 ≤ (par i).sigma (mesh.geo i).center)
    (hB : ∀ F ∈ mesh.boundary, Passive (maxwellEnergy eps mu) (maxwellNormalFlux eps mu) (Maxwell.numericalFlux sqrt invert eps mu eps mu) F)
    (x : Fin N × Fin 6 × Fin n → K) :
    ∃ r, Maxwell.meshResidual sqrt invert o mesh par x = some r ∧ 0 ≤ tested r fun i => (if i.2.1.val < 3 then 1 / eps else 1 / mu) * x i := by
  have hw : ∀ i : Fin 6, (if i.val < 3 then 1 / eps else 1 / mu) = ![1 / eps, 1 / eps, 1 / eps, 1 / mu, 1 / mu, 1 / mu] i := by
    intro i
    fin_cases i <;> rfl
  simp only [hw]
  refine dissipative o mesh hp hD (e := ![1 / eps, 1 / eps, 1 / eps, 1 / mu, 1 / mu, 1 / mu])
    (T := fun j i l => maxwellNormalFlux eps mu (Pi.single j 1) (Pi.single l 1) i) ?_ (A := maxwellNormalFlux eps mu) ?_
    (Maxwell.numericalFlux sqrt invert eps mu eps mu) ?_ ?_ x (fun c i k p => if i.val < 3 then
      (par c).sigma (mesh.geo c).center / eps * cellFunction mesh x c p i * (mesh.lfs c).phi p k else 0) ?_ _ _ _ ?_ ?_ ?_
  · intro j i l
    simp only [maxwellNormalFlux_eq, Matrix.mulVec_single_one, Matrix.col_apply]
    fin_cases j <;> fin_cases i <;> fin_cases l <;> simp [maxwellMatrix] <;> ring
  · intro v u i
    simp only [maxwellNormalFlux_eq, Matrix.mulVec_single_one, Matrix.col_apply]
    fin_cases i <;> simp [maxwellMatrix, Matrix.mulVec, dotProduct, Fin.sum_univ_succ] <;> ring
  · intro ν hν uS uN
    simp only [maxwell_weighted]
    exact C161_maxwellEnergy hi he0 hm0 he hm hem hν uS uN
  · intro F hF q u
    simp only [maxwell_weighted]
    exact hB F hF q u
  · intro c p
    rw [Finset.sum_comm]
    refine Finset.sum_nonneg fun i _ => ?_
    rw [← hw]
    by_cases h3 : i.val < 3
    · simp only [h3, if_true]
      have e1 : ∑ k, 1 / eps * x (c, i, k) * ((par c).sigma (mesh.geo c).center / eps * cellFunction mesh x c p i * (mesh.lfs c).phi p k) =
          1 / eps * ((par c).sigma (mesh.geo c).center / eps) * (cellFunction mesh x c p i * cellFunction mesh x c p i) := by
        conv_rhs => rw [show cellFunction mesh x c p i * cellFunction mesh x c p i =
          cellFunction mesh x c p i * ∑ k, x (c, i, k) * (mesh.lfs c).phi p k from rfl]
        rw [Finset.mul_sum, Finset.mul_sum]
        exact Finset.sum_congr rfl fun k _ => by ring
      rw [e1]
      exact mul_nonneg (mul_nonneg (one_div_nonneg.mpr he0.le) (div_nonneg (hpar c).2.2 he0.le)) (mul_self_nonneg _)
    · simp [h3]
  · intro i
    obtain ⟨r, h1, h2⟩ := C163_maxwellVolume o (mesh.geo i) (par i) (mesh.lfs i) (fun k => x (i, k)) (hp.order i)
    refine ⟨r, h1, fun a k => ?_⟩
    rw [h2, (hpar i).1, (hpar i).2.1]
    rfl
  · intro F _
    obtain ⟨⟨r, h1, h2, h3⟩, -⟩ := C163_maxwellFaces sqrt invert o F.geo (mesh.geo F.inside) (mesh.geo F.outside) (par F.inside)
      (par F.outside) (fun _ u => u) (mesh.lfs F.inside) (mesh.lfs F.outside) (fun k => x (F.inside, k)) (fun k => x (F.outside, k))
      (hp.order _) (hp.order _)
    refine ⟨r, h1, fun a k => ?_, fun a k => ?_⟩
    · rw [h2, (hpar _).1, (hpar _).1, (hpar _).2.1, (hpar _).2.1]; rfl
    · rw [h3, (hpar _).1, (hpar _).1, (hpar _).2.1, (hpar _).2.1]; rfl
  · intro F _
    obtain ⟨-, r, h1, h2⟩ := C163_maxwellFaces sqrt invert o F.geo (mesh.geo F.inside) (mesh.geo F.inside) (par F.inside) (par F.inside)
      F.g (mesh.lfs F.inside) (mesh.lfs F.inside) (fun k => x (F.inside, k)) (fun k => x (F.inside, k)) (hp.order _) (hp.order _)
    refine ⟨r, h1, fun a k => ?_⟩
    rw [h2, (hpar _).1, (hpar _).2.1]; rfl

/-- **C233 (Maxwell, time stepping).** -/
theorem C233_maxwell_euler {sqrt : K → K} {invert : Maxwell.Invert K} (hi : Inverts invert) {eps mu : K}
    (he0 : 0 < eps) (hm0 : 0 < mu) (he : RootOf sqrt eps) (hm : RootOf sqrt mu) (hem : RootOf sqrt (eps * mu)) (o : Int)
    (mesh : Mesh K P Q 3 6 n N) (hp : ProperMesh mesh) (hD : DivergenceTheorem o mesh) (par : Fin N → Maxwell.CellParam K P)
    (hpar : ∀ i, (par i).eps (mesh.geo i).center = eps ∧ (par i).mu (mesh.geo i).center = mu ∧ 0 ≤ (par i).sigma (mesh.geo i).center)
    (hB : ∀ F ∈ mesh.boundary, Passive (maxwellEnergy eps mu) (maxwellNormalFlux eps mu) (Maxwell.numericalFlux sqrt invert eps mu eps mu) F)
    (dt : Nat → K) (hdt : ∀ k, 0 ≤ dt k) (x : Nat → Fin N × Fin 6 × Fin n → K)
    (h : ImplicitEuler (Temporal.meshResidual o mesh) (Maxwell.meshResidual sqrt invert o mesh par) dt x) :
    Antitone fun k => meshEnergy o mesh (maxwellEnergy eps mu) (x k) := by
  refine antitone_nat_of_succ_le fun k => ?_
  have hw : ∀ i : Fin 6, (if i.val < 3 then 1 / eps else 1 / mu) = ![1 / eps, 1 / eps, 1 / eps, 1 / mu, 1 / mu, 1 / mu] i := by
    intro i
    fin_cases i <;> rfl
  have hE : maxwellEnergy eps mu = weighted ![1 / eps, 1 / eps, 1 / eps, 1 / mu, 1 / mu, 1 / mu] := by
    funext u v
    exact (maxwell_weighted eps mu u v).symm
  rw [hE]
  refine euler_energy o mesh hp _ (fun i => ?_) _ (fun x => ?_) dt hdt x h k
  · rw [← hw]
    split
    · exact one_div_nonneg.mpr he0.le
    · exact one_div_nonneg.mpr hm0.le
  · obtain ⟨r, h1, h2⟩ := C233_maxwell hi he0 hm0 he hm hem o mesh hp hD par hpar hB x
    refine ⟨r, h1, le_of_le_of_eq h2 ?_⟩
    simp only [hw]

/-- **C233 (Maxwell, boundary).** The outer state 0, and the outer state that reflects the electric field at a perfect conductor,
feed in no energy. -/
theorem C233_maxwell_boundary {sqrt : K → K} {invert : Maxwell.Invert K} (hi : Inverts invert) {eps mu : K}
    (he0 : 0 < eps) (hm0 : 0 < mu) (he : RootOf sqrt eps) (hm : RootOf sqrt mu) (hem : RootOf sqrt (eps * mu))
    (F : BoundaryFace K P Q 3 6 N) (hn : F.geo.centerUnitOuterNormal ⬝ᵥ F.geo.centerUnitOuterNormal = 1)
    (hg : (∀ q u, F.g q u = 0) ∨ ∀ q u, F.g q u = ![-u 0, -u 1, -u 2, u 3, u 4, u 5]) :
    Passive (maxwellEnergy eps mu) (maxwellNormalFlux eps mu) (Maxwell.numericalFlux sqrt invert eps mu eps mu) F := by
  intro q u
  rcases hg with hg | hg
  · have := C161_maxwellEnergy hi he0 hm0 he hm hem hn u 0
    rw [hg]
    have z : maxwellEnergy eps mu (maxwellNormalFlux eps mu F.geo.centerUnitOuterNormal 0) 0 = 0 := by
      simp [maxwellEnergy, dPart, bPart, dotProduct, Fin.sum_univ_succ]
    rwa [z, zero_div, sub_zero, sub_zero] at this
  · rw [hg]
    unfold Maxwell.numericalFlux
    rw [(maxwell_parts hi he0 hm0 he hm hem hn u).1, (maxwell_parts hi he0 hm0 he hm hem hn _).2]
    refine upwind_reflects (A := maxwellNormalFlux eps mu F.geo.centerUnitOuterNormal) (E := maxwellEnergy eps mu)
      (R := fun u => ![-u 0, -u 1, -u 2, u 3, u 4, u 5])
      (maxwellNormalFlux_add _ _ _) (maxwellNormalFlux_smul _ _ _) ?_ ?_ ?_ ?_ ?_ ?_ ?_ ?_ ?_ u
    · intro u v w
      simp only [maxwellEnergy, dPart, bPart, dotProduct, Fin.sum_univ_succ, Fin.sum_univ_zero, Pi.add_apply]
      simp
      ring
    · intro a u v
      simp only [maxwellEnergy, dPart, bPart, dotProduct, Fin.sum_univ_succ, Fin.sum_univ_zero, Pi.smul_apply, smul_eq_mul]
      simp
      ring
    · intro u v
      simp only [maxwellEnergy, dPart, bPart, dotProduct, Fin.sum_univ_succ, Fin.sum_univ_zero]
      simp
      ring
    · intro u v
      simp [maxwellEnergy, maxwellNormalFlux, dPart, bPart, dotProduct, Fin.sum_univ_succ, cross_apply]
      field_simp
      ring
    · intro u
      rw [maxwellEnergy]
      refine add_nonneg (div_nonneg ?_ he0.le) (div_nonneg ?_ hm0.le)
      all_goals exact Finset.sum_nonneg fun j _ => mul_self_nonneg _
    · intro u v
      simp [maxwellEnergy, dPart, bPart, dotProduct, Fin.sum_univ_succ]
    · intro u
      ext i
      fin_cases i <;> simp
    · intro u
      simp only [maxwellNormalFlux_eq]
      ext i
      fin_cases i <;> simp [maxwellMatrix, Matrix.mulVec, dotProduct, Fin.sum_univ_succ] <;> ring
    · have h0 : 0 ≤ sqrt (eps * mu) := hem.2
      have h1 : sqrt (eps * mu) ≠ 0 := by
        intro hh
        have := hem.1
        rw [hh, zero_mul] at this
        exact (mul_pos he0 hm0).ne this
      exact one_div_pos.mpr (lt_of_le_of_ne h0 h1.symm)

end

/-! ### Two cells -/

/-- Cramer's rule. -/
private def cramerSolve : Acoustics.Solve Rat := fun _ M b i => (M.updateCol i b).det / M.det

private theorem cramerSolve_solves : Solves cramerSolve := by
  intro k M b h
  have h1 : cramerSolve k M b = (1 / M.det) • M.cramer b := by
    funext i
    rw [Pi.smul_apply, Matrix.cramer_apply, smul_eq_mul]
    unfold cramerSolve
    ring
  rw [h1, Matrix.mulVec_smul, Matrix.mulVec_cramer, smul_smul, one_div, inv_mul_cancel₀ h, one_smul]

/-- Two neighbouring intervals with linear functions; outside there is nothing. -/
private def twoCells (g : Unit → (Fin 2 → Rat) → Fin 2 → Rat) : Mesh Rat Rat Unit 1 2 2 2 where
  geo := fun _ => ⟨1 / 2, 1, fun p _ => p, fun _ => 1, fun _ => 1, fun _ => [(0, 1 / 6), (1 / 2, 2 / 3), (1, 1 / 6)]⟩
  lfs := fun _ => ⟨1, fun p => ![1 - p, p], fun _ => ![![-1], ![1]]⟩
  inner := [⟨⟨(), 1, 1, fun _ _ => 1, fun _ => 1, fun _ => 1, fun _ => 0, fun _ => 1, fun _ _ => 1, fun _ => [((), 1)]⟩, 0, 1⟩]
  boundary := [⟨⟨(), 1, 1, fun _ _ => 0, fun _ => 1, fun _ => 0, fun _ => 0, fun _ => -1, fun _ _ => -1, fun _ => [((), 1)]⟩, 0, g⟩,
    ⟨⟨(), 1, 1, fun _ _ => 2, fun _ => 1, fun _ => 1, fun _ => 0, fun _ => 1, fun _ _ => 1, fun _ => [((), 1)]⟩, 1, g⟩]

private theorem twoCells_proper (g : Unit → (Fin 2 → Rat) → Fin 2 → Rat) : ProperMesh (twoCells g) where
  cells := by
    intro c o q hq
    simp only [twoCells, List.mem_cons, List.not_mem_nil, or_false] at hq
    rcases hq with rfl | rfl | rfl <;> simp [twoCells] <;> norm_num
  inner := by
    intro F hF o q hq
    simp only [twoCells, List.mem_cons, List.not_mem_nil, or_false] at hF
    subst hF
    simp only [List.mem_cons, List.not_mem_nil, or_false] at hq
    subst hq
    norm_num
  boundary := by
    intro F hF o q hq
    simp only [twoCells, List.mem_cons, List.not_mem_nil, or_false] at hF
    rcases hF with rfl | rfl <;>
    · simp only [List.mem_cons, List.not_mem_nil, or_false] at hq
      subst hq
      norm_num
  normals := by
    intro F hF
    simp only [twoCells, List.mem_cons, List.not_mem_nil, or_false] at hF
    subst hF
    simp [dotProduct]
  boundaryNormals := by
    intro F hF
    simp only [twoCells, List.mem_cons, List.not_mem_nil, or_false] at hF
    rcases hF with rfl | rfl <;> simp [dotProduct]
  order := fun _ => by simp [twoCells]

private theorem twoCells_divergence (g : Unit → (Fin 2 → Rat) → Fin 2 → Rat) : DivergenceTheorem 0 (twoCells g) := by
  intro c k l j
  fin_cases c <;> fin_cases k <;> fin_cases l <;> fin_cases j <;>
    simp [cellIntegral, faceIntegral, boundaryIntegral, quadrature, twoCells, globalGradient, Matrix.mulVec, dotProduct] <;> norm_num

-- a wall at the left and the right: all computed energies are at most the initial one
example (dt : Nat → Rat) (hdt : ∀ k, 0 ≤ dt k) (x : Nat → Fin 2 × Fin 2 × Fin 2 → Rat)
    (h : ImplicitEuler (Temporal.meshResidual 0 (twoCells fun _ u => Fin.cons (u 0) fun j => -u j.succ))
      (Acoustics.meshResidual cramerSolve 0 (twoCells fun _ u => Fin.cons (u 0) fun j => -u j.succ) fun _ => ⟨fun _ => 3, fun _ => 0⟩) dt x) (k : Nat) :
    meshEnergy 0 (twoCells fun _ u => Fin.cons (u 0) fun j => -u j.succ) (acousticEnergy 3) (x k) ≤
      meshEnergy 0 (twoCells fun _ u => Fin.cons (u 0) fun j => -u j.succ) (acousticEnergy 3) (x 0) :=
  C233_acoustics_euler (Or.inl rfl) cramerSolve_solves (by norm_num) 0 _ (twoCells_proper _) (twoCells_divergence _) _ (fun _ => rfl)
    (fun F hF => C233_acoustics_boundary (Or.inl rfl) cramerSolve_solves (by norm_num) F ((twoCells_proper _).boundaryNormals F hF)
      (by
        simp only [twoCells, List.mem_cons, List.not_mem_nil, or_false] at hF
        rcases hF with rfl | rfl <;> exact Or.inr fun _ _ => rfl)) dt hdt x h (Nat.zero_le k)

/-- A cube with constant functions, in a perfect conductor. -/
private def cube : Mesh Rat Unit Unit 3 6 1 1 where
  geo := fun _ => ⟨(), 1, fun _ _ => 0, fun _ => 1, fun _ => 1, fun _ => [((), 1)]⟩
  lfs := fun _ => ⟨0, fun _ _ => 1, fun _ _ => 0⟩
  inner := []
  boundary := [![1, 0, 0], ![-1, 0, 0], ![0, 1, 0], ![0, -1, 0], ![0, 0, 1], ![0, 0, -1]].map fun ν =>
    ⟨⟨(), 1, 1, fun _ _ => 0, fun _ => 1, fun _ => (), fun _ => (), ν, fun _ => ν, fun _ => [((), 1)]⟩, 0,
      fun _ u => ![-u 0, -u 1, -u 2, u 3, u 4, u 5]⟩

private theorem cube_proper : ProperMesh cube where
  cells := by
    intro c o q hq
    simp only [cube, List.mem_cons, List.not_mem_nil, or_false] at hq
    subst hq
    simp [cube]
  inner := fun F hF => absurd hF (by simp [cube])
  boundary := by
    intro F hF o q hq
    obtain ⟨ν, -, rfl⟩ := List.mem_map.mp hF
    simp only [List.mem_cons, List.not_mem_nil, or_false] at hq
    subst hq
    norm_num
  normals := fun F hF => absurd hF (by simp [cube])
  boundaryNormals := by
    intro F hF
    obtain ⟨ν, hν, rfl⟩ := List.mem_map.mp hF
    simp only [List.mem_cons, List.not_mem_nil, or_false] at hν
    rcases hν with rfl | rfl | rfl | rfl | rfl | rfl <;> simp
  order := fun _ => by simp [cube]

private theorem cube_divergence : DivergenceTheorem 0 cube := by
  intro c k l j
  fin_cases c; fin_cases k; fin_cases l
  fin_cases j <;> simp [cellIntegral, boundaryIntegral, quadrature, cube, globalGradient]

-- the field in the cube, for a conductivity of 2
example (dt : Nat → Rat) (hdt : ∀ k, 0 ≤ dt k) (x : Nat → Fin 1 × Fin 6 × Fin 1 → Rat)
    (h : ImplicitEuler (Temporal.meshResidual 0 cube)
      (Maxwell.meshResidual id (fun M => M⁻¹) 0 cube fun _ => ⟨fun _ => 1, fun _ => 1, fun _ => 2, fun _ => 0⟩) dt x) (k : Nat) :
    meshEnergy 0 cube (maxwellEnergy 1 1) (x k) ≤ meshEnergy 0 cube (maxwellEnergy 1 1) (x 0) := by
  have hi : Inverts (K := Rat) fun M => M⁻¹ := fun M hM => Matrix.mul_nonsing_inv M (isUnit_iff_ne_zero.mpr hM)
  have r1 : RootOf id (1 : Rat) := ⟨by simp, by simp⟩
  have r2 : RootOf id (1 * 1 : Rat) := ⟨by simp, by simp⟩
  exact C233_maxwell_euler hi one_pos one_pos r1 r1 r2 0 cube cube_proper cube_divergence _ (fun _ => ⟨rfl, rfl, by norm_num⟩)
    (fun F hF => C233_maxwell_boundary hi one_pos one_pos r1 r1 r2 F (cube_proper.boundaryNormals F hF)
      (by
        obtain ⟨ν, -, rfl⟩ := List.mem_map.mp hF
        exact Or.inr fun _ _ => rfl)) dt hdt x h (Nat.zero_le k)

/-- **C233 (limit of the claim).** With different speeds of sound in the cells, the residual can feed energy into the field: a wave
in two neighbouring cells with speeds of sound 16 and 1, and no incoming wave from outside. -/
theorem C233_two_fluids_false : ¬ ∀ (solve : Acoustics.Solve Rat), Solves solve → ∀ (mesh : Mesh Rat Rat Unit 1 2 2 2), ProperMesh mesh →
    DivergenceTheorem 0 mesh → ∀ (par : Fin 2 → Acoustics.CellParam Rat Rat 1), (∀ i, 0 < (par i).c (mesh.geo i).center) →
    (∀ F ∈ mesh.boundary, Passive (acousticEnergy ((par F.inside).c (mesh.geo F.inside).center))
      (acousticNormalFlux ((par F.inside).c (mesh.geo F.inside).center))
      (Acoustics.numericalFlux solve ((par F.inside).c (mesh.geo F.inside).center) ((par F.inside).c (mesh.geo F.inside).center)) F) →
    ∀ x r, Acoustics.meshResidual solve 0 mesh par x = some r →
      0 ≤ tested r fun i => (if i.2.1 = 0 then ((par i.1).c (mesh.geo i.1).center) ^ 2 else 1) * x i := by
  intro h
  let par : Fin 2 → Acoustics.CellParam Rat Rat 1 := ![⟨fun _ => 16, fun _ => 0⟩, ⟨fun _ => 1, fun _ => 0⟩]
  let x : Fin 2 × Fin 2 × Fin 2 → Rat := fun i => if i.1 = 0 then (if i.2.1 = 0 then 1 / 32 else 1 / 2) else 2
  have h1 : (Acoustics.meshResidual cramerSolve 0 (twoCells fun _ _ => 0) par x).map (fun r => tested r fun i =>
      (if i.2.1 = 0 then ((par i.1).c ((twoCells fun _ _ => 0).geo i.1).center) ^ 2 else 1) * x i) = some (-1) := by
    decide +kernel
  obtain ⟨r, hr, h2⟩ := Option.map_eq_some_iff.mp h1
  have hpos : ∀ i, 0 < (par i).c ((twoCells fun _ _ => 0).geo i).center := by
    intro i
    fin_cases i <;> simp [par]
  have := h cramerSolve cramerSolve_solves _ (twoCells_proper _) (twoCells_divergence _) par hpos
    (fun F hF => C233_acoustics_boundary (Or.inl rfl) cramerSolve_solves (hpos _) F ((twoCells_proper _).boundaryNormals F hF)
      (by
        simp only [twoCells, List.mem_cons, List.not_mem_nil, or_false] at hF
        rcases hF with rfl | rfl <;> exact Or.inl fun _ _ => rfl)) x r hr
  rw [h2] at this
  exact absurd this (by norm_num)

end Verif
