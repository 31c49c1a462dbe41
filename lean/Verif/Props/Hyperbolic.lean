import Verif.Proofs.HyperbolicTotals
import Mathlib.Algebra.Order.Ring.Rat
import Mathlib.Algebra.Field.Rat
import Mathlib.LinearAlgebra.Matrix.NonsingularInverse
set_option linter.unusedSectionVars false
/-
C161-C165: the discontinuous Galerkin operators for linear acoustics and for Maxwell's equations, and the time at which local
operators evaluate their coefficients.
-/
namespace Verif
open LocalOp LocalOp.Spec LocalOp.Hyperbolic Matrix

section
variable {K P Q : Type} [Field K] [LinearOrder K] [IsStrictOrderedRing K] {d n ns nn m : Nat}

/-! ### C161: the numerical fluxes -/

/-- **C161 (eigenvectors, acoustics).** The rows of the matrix are eigenvectors of the flux through a surface: the last but one for
the eigenvalue `c`, the last one for `-c`, the others for 0; the matrix is regular, and `eigenvectors` is its transpose. -/
theorem C161_acousticEigenvectors (hd : d = 1 ∨ d = 2 ∨ d = 3) {c : K} (hc : c ≠ 0) {nF : Fin d → K} (h : nF ⬝ᵥ nF = 1) :
    (∀ r : Fin (d + 1), acousticNormalFlux c nF (Acoustics.eigenvectorsTransposed d c nF r)
      = (if r.val = d then -c else if r.val + 1 = d then c else 0) • Acoustics.eigenvectorsTransposed d c nF r) ∧
    (Acoustics.eigenvectorsTransposed d c nF).det ≠ 0 ∧
    Acoustics.eigenvectors d c nF = (Acoustics.eigenvectorsTransposed d c nF)ᵀ := by
  refine ⟨fun r => ?_, eigenvectorsTransposed_det d hd c hc nF h, ?_⟩
  · have hr := eigenvectorsTransposed_rows d hd c nF
    have hn : ∀ a : K, ∑ j : Fin d, a * nF j * nF j = a := by
      intro a
      calc ∑ j : Fin d, a * nF j * nF j = a * (nF ⬝ᵥ nF) := by
            rw [dotProduct, Finset.mul_sum]
            exact Finset.sum_congr rfl fun j _ => by ring
        _ = a := by rw [h, mul_one]
    rcases (by omega : r.val < d - 1 ∨ r.val = d - 1 ∨ r.val = d) with hlt | heq | heq
    · obtain ⟨h0, h1⟩ := eigenvectorsTransposed_rest d hd c nF h r hlt
      rw [if_neg (by omega), if_neg (by omega), zero_smul]
      ext i
      refine Fin.cases ?_ (fun k => ?_) i
      · rw [acousticNormalFlux_zero, h1, Pi.zero_apply]
      · rw [acousticNormalFlux_succ, h0, Pi.zero_apply]
        ring
    · have hre : r = ⟨d - 1, by omega⟩ := Fin.ext heq
      rw [if_neg (by omega), if_pos (by omega), hre, hr.1]
      ext i
      refine Fin.cases ?_ (fun k => ?_) i
      · simp [acousticNormalFlux_zero, hn]
      · simp [acousticNormalFlux_succ]
        ring
    · have hre : r = Fin.last d := Fin.ext heq
      rw [if_pos heq, hre, hr.2]
      ext i
      refine Fin.cases ?_ (fun k => ?_) i
      · simp [acousticNormalFlux_zero, hn]
      · simp [acousticNormalFlux_succ]
        ring
  · rcases hd with rfl | rfl | rfl
    all_goals
      ext i j
      fin_cases i <;> fin_cases j <;> rfl

/-- **C161 (eigenvectors, Maxwell).** The columns of the matrix are eigenvectors for the eigenvalues s, s, -s, -s, 0, 0 with
s = 1/√(εμ), and the matrix is regular. -/
theorem C161_maxwellEigenvectors {sqrt : K → K} {eps mu : K} (he0 : 0 < eps) (hm0 : 0 < mu) (he : RootOf sqrt eps)
    (hm : RootOf sqrt mu) (hem : RootOf sqrt (eps * mu)) {nF : Fin 3 → K} (h : nF ⬝ᵥ nF = 1) :
    (∀ r : Fin 6, maxwellNormalFlux eps mu nF (fun i => Maxwell.eigenvectors sqrt eps mu nF i r)
      = (if r.val < 2 then 1 / sqrt (eps * mu) else if r.val < 4 then -(1 / sqrt (eps * mu)) else 0) •
        fun i => Maxwell.eigenvectors sqrt eps mu nF i r) ∧
    (Maxwell.eigenvectors sqrt eps mu nF).det ≠ 0 := by
  refine ⟨fun r => ?_, maxwell_eigenvectors_det sqrt eps mu he hm he0.ne' hm0.ne' nF h⟩
  have hMR := maxwell_eigenvectors sqrt eps mu he hm he0.ne' hm0.ne' nF h
  rw [← rootOf_mul he hm hem] at hMR
  ext i
  have := congrFun (congrFun hMR i) r
  rw [Matrix.mul_apply, Matrix.mul_diagonal] at this
  rw [maxwellNormalFlux_eq, Matrix.mulVec, dotProduct, this, Pi.smul_apply, smul_eq_mul, mul_comm]
  congr 1
  fin_cases r <;> simp [maxwellSpeeds]

/-- **C161 (upwind, acoustics).** The numerical flux consists of the wave that leaves the inside along the normal and of the wave
that leaves the outside against the normal; every state can be split that way. -/
theorem C161_acousticUpwind (hd : d = 1 ∨ d = 2 ∨ d = 3) {solve : Acoustics.Solve K} (hs : Solves solve) {cS cN : K}
    (hS : cS ≠ 0) (hN : cN ≠ 0) {nF : Fin d → K} (h : nF ⬝ᵥ nF = 1) :
    (∀ uS pS qS uN pN qN, IsWaveSplitting (acousticNormalFlux cS nF) cS uS pS qS →
      IsWaveSplitting (acousticNormalFlux cN nF) cN uN pN qN →
      Acoustics.numericalFlux solve cS cN nF uS uN = cS • pS + -cN • qN) ∧
    ∀ u, ∃ p q, IsWaveSplitting (acousticNormalFlux cS nF) cS u p q := by
  constructor
  · intro uS pS qS uN pN qN h1 h2
    rw [acoustics_flux hd hs hS hN h, split_plus two_ne_zero (acousticNormalFlux_add _ _) (acousticNormalFlux_smul _ _) hS h1,
      split_minus two_ne_zero (acousticNormalFlux_add _ _) (acousticNormalFlux_smul _ _) hN h2]
  · exact exists_split two_ne_zero (acousticNormalFlux_add _ _) (acousticNormalFlux_smul _ _) hS (acoustic_cubed cS h)

/-- **C161 (upwind, Maxwell).** -/
theorem C161_maxwellUpwind {sqrt : K → K} {invert : Maxwell.Invert K} (hi : Inverts invert) {epsS muS epsN muN : K}
    (he0 : 0 < epsS) (hm0 : 0 < muS) (he : RootOf sqrt epsS) (hm : RootOf sqrt muS) (hem : RootOf sqrt (epsS * muS))
    (he0' : 0 < epsN) (hm0' : 0 < muN) (he' : RootOf sqrt epsN) (hm' : RootOf sqrt muN) (hem' : RootOf sqrt (epsN * muN))
    {nF : Fin 3 → K} (h : nF ⬝ᵥ nF = 1) :
    (∀ uS pS qS uN pN qN, IsWaveSplitting (maxwellNormalFlux epsS muS nF) (1 / sqrt (epsS * muS)) uS pS qS →
      IsWaveSplitting (maxwellNormalFlux epsN muN nF) (1 / sqrt (epsN * muN)) uN pN qN →
      Maxwell.numericalFlux sqrt invert epsS muS epsN muN nF uS uN
        = (1 / sqrt (epsS * muS)) • pS + -(1 / sqrt (epsN * muN)) • qN) ∧
    ∀ u, ∃ p q, IsWaveSplitting (maxwellNormalFlux epsS muS nF) (1 / sqrt (epsS * muS)) u p q := by
  have h0 : ∀ {e m : K}, 0 < e → 0 < m → RootOf sqrt (e * m) → 1 / sqrt (e * m) ≠ 0 := by
    intro e m h1 h2 h3
    refine one_div_ne_zero fun hh => ?_
    have := h3.1
    rw [hh, zero_mul] at this
    exact (mul_pos h1 h2).ne this
  constructor
  · intro uS pS qS uN pN qN h1 h2
    unfold Maxwell.numericalFlux
    rw [(maxwell_parts hi he0 hm0 he hm hem h uS).1, (maxwell_parts hi he0' hm0' he' hm' hem' h uN).2,
      split_plus two_ne_zero (maxwellNormalFlux_add _ _ _) (maxwellNormalFlux_smul _ _ _) (h0 he0 hm0 hem) h1,
      split_minus two_ne_zero (maxwellNormalFlux_add _ _ _) (maxwellNormalFlux_smul _ _ _) (h0 he0' hm0' hem') h2]
  · refine exists_split two_ne_zero (maxwellNormalFlux_add _ _ _) (maxwellNormalFlux_smul _ _ _) (h0 he0 hm0 hem) fun u => ?_
    rw [maxwell_cubed he0.ne' hm0.ne' h]
    congr 1
    rw [div_mul_div_comm, one_mul, hem.1]

/-- **C161 (energy, acoustics).** With one speed of sound the scheme loses energy at the faces, and never gains any: what the test
function takes from the numerical flux is at least the difference of the energy fluxes of the two traces. -/
theorem C161_acousticEnergy (hd : d = 1 ∨ d = 2 ∨ d = 3) {solve : Acoustics.Solve K} (hs : Solves solve) {c : K}
    (hc : 0 < c) {nF : Fin d → K} (h : nF ⬝ᵥ nF = 1) (uS uN : Fin (d + 1) → K) :
    acousticEnergy c (acousticNormalFlux c nF uS) uS / 2 - acousticEnergy c (acousticNormalFlux c nF uN) uN / 2 ≤
      acousticEnergy c (Acoustics.numericalFlux solve c c nF uS uN) (uS - uN) := by
  rw [acoustics_flux hd hs hc.ne' hc.ne' h]
  refine upwind_dissipates (A := acousticNormalFlux c nF) (acousticNormalFlux_add _ _) (acousticNormalFlux_smul _ _)
    ?_ ?_ ?_ ?_ ?_ hc uS uN
  · intro u v w
    simp only [acousticEnergy, Pi.add_apply, add_mul, mul_add, Finset.sum_add_distrib]
    ring
  · intro a u v
    simp only [acousticEnergy, Pi.smul_apply, smul_eq_mul, mul_add, Finset.mul_sum]
    congr 1
    · ring
    · exact Finset.sum_congr rfl fun j _ => by ring
  · intro u v
    simp only [acousticEnergy]
    congr 1
    · ring
    · exact Finset.sum_congr rfl fun j _ => by ring
  · intro u v
    simp only [acousticEnergy, acousticNormalFlux_zero, acousticNormalFlux_succ, Finset.mul_sum, Finset.sum_mul]
    rw [add_comm]
    congr 1
    · exact Finset.sum_congr rfl fun j _ => by ring
    · exact Finset.sum_congr rfl fun j _ => by ring
  · intro u
    have : 0 ≤ c ^ 2 * (u 0 * u 0) := mul_nonneg (sq_nonneg c) (mul_self_nonneg _)
    rw [acousticEnergy, mul_assoc]
    exact add_nonneg this (Finset.sum_nonneg fun j _ => mul_self_nonneg _)

/-- **C161 (energy, Maxwell).** -/
theorem C161_maxwellEnergy {sqrt : K → K} {invert : Maxwell.Invert K} (hi : Inverts invert) {eps mu : K}
    (he0 : 0 < eps) (hm0 : 0 < mu) (he : RootOf sqrt eps) (hm : RootOf sqrt mu) (hem : RootOf sqrt (eps * mu))
    {nF : Fin 3 → K} (h : nF ⬝ᵥ nF = 1) (uS uN : Fin 6 → K) :
    maxwellEnergy eps mu (maxwellNormalFlux eps mu nF uS) uS / 2 - maxwellEnergy eps mu (maxwellNormalFlux eps mu nF uN) uN / 2 ≤
      maxwellEnergy eps mu (Maxwell.numericalFlux sqrt invert eps mu eps mu nF uS uN) (uS - uN) := by
  unfold Maxwell.numericalFlux
  rw [(maxwell_parts hi he0 hm0 he hm hem h uS).1, (maxwell_parts hi he0 hm0 he hm hem h uN).2]
  refine upwind_dissipates (A := maxwellNormalFlux eps mu nF) (E := maxwellEnergy eps mu) (maxwellNormalFlux_add _ _ _)
    (maxwellNormalFlux_smul _ _ _) ?_ ?_ ?_ ?_ ?_ ?_ uS uN
  · intro u v w
    simp only [maxwellEnergy, dPart, bPart, dotProduct, Fin.sum_univ_succ, Fin.sum_univ_zero, Pi.add_apply]
    simp
    ring
  · intro a u v
    simp only [maxwellEnergy, dPart, bPart, dotProduct, Fin.sum_univ_succ, Fin.sum_univ_zero, Pi.smul_apply, smul_eq_mul]
    simp
    ring
  · intro u v
    simp only [maxwellEnergy, dPart, bPart, dotProduct, Fin.sum_univ_succ, Fin.sum_univ_zero]
    simp
    ring
  · intro u v
    simp [maxwellEnergy, maxwellNormalFlux, dPart, bPart, dotProduct, Fin.sum_univ_succ, cross_apply]
    field_simp
    ring
  · intro u
    rw [maxwellEnergy]
    refine add_nonneg (div_nonneg ?_ he0.le) (div_nonneg ?_ hm0.le)
    all_goals exact Finset.sum_nonneg fun j _ => mul_self_nonneg _
  · have h0 : 0 ≤ sqrt (eps * mu) := hem.2
    have h1 : sqrt (eps * mu) ≠ 0 := by
      intro hh
      have := hem.1
      rw [hh, zero_mul] at this
      exact (mul_pos he0 hm0).ne this
    exact one_div_pos.mpr (lt_of_le_of_ne h0 h1.symm)

/-! ### C162: interfaces between materials -/

/-- **C162 (acoustics).** With the same speed of sound on both sides, the numerical flux is exact where the normal flux does not
jump; in particular it is consistent. Missing: different speeds of sound, see `C162_acousticInterface_false`. -/
theorem C162_acousticInterface_partial (hd : d = 1 ∨ d = 2 ∨ d = 3) {solve : Acoustics.Solve K} (hs : Solves solve) {c : K}
    (hc : c ≠ 0) {nF : Fin d → K} (h : nF ⬝ᵥ nF = 1) :
    ExactAtInterface (acousticNormalFlux c nF) (acousticNormalFlux c nF) (Acoustics.numericalFlux solve c c nF) := by
  intro uS uN hu
  rw [acoustics_flux hd hs hc hc h, ← hu]
  ext i
  simp only [Pi.smul_apply, Pi.add_apply, Pi.neg_apply, smul_eq_mul]
  field_simp
  ring

/-- **C162 (Maxwell).** With the same ε and μ on both sides. Missing: different materials, see `C162_maxwellInterface_false`. -/
theorem C162_maxwellInterface_partial {sqrt : K → K} {invert : Maxwell.Invert K} (hi : Inverts invert) {eps mu : K}
    (he0 : 0 < eps) (hm0 : 0 < mu) (he : RootOf sqrt eps) (hm : RootOf sqrt mu) (hem : RootOf sqrt (eps * mu))
    {nF : Fin 3 → K} (h : nF ⬝ᵥ nF = 1) :
    ExactAtInterface (maxwellNormalFlux eps mu nF) (maxwellNormalFlux eps mu nF)
      (Maxwell.numericalFlux sqrt invert eps mu eps mu nF) := by
  have h1 : sqrt (eps * mu) ≠ 0 := by
    intro hh
    have := hem.1
    rw [hh, zero_mul] at this
    exact (mul_pos he0 hm0).ne this
  intro uS uN hu
  unfold Maxwell.numericalFlux
  rw [(maxwell_parts hi he0 hm0 he hm hem h uS).1, (maxwell_parts hi he0 hm0 he hm hem h uN).2, ← hu]
  ext i
  simp only [Pi.smul_apply, Pi.add_apply, Pi.neg_apply, smul_eq_mul]
  field_simp
  ring

/-- **C162 (acoustics, false).** For any two different speeds of sound, the fluid at rest with the same pressure on both sides is
not preserved: mass flows across the interface. -/
theorem C162_acousticInterface_false (hd : d = 1 ∨ d = 2 ∨ d = 3) {solve : Acoustics.Solve K} (hs : Solves solve) {cS cN : K}
    (hS : 0 < cS) (hN : 0 < cN) (hne : cS ≠ cN) {nF : Fin d → K} (h : nF ⬝ᵥ nF = 1) :
    ¬ ExactAtInterface (acousticNormalFlux cS nF) (acousticNormalFlux cN nF) (Acoustics.numericalFlux solve cS cN nF) := by
  intro hex
  have hS0 := hS.ne'
  have hN0 := hN.ne'
  have hu : acousticNormalFlux cS nF (Fin.cons (1 / cS ^ 2) fun _ => 0) = acousticNormalFlux cN nF (Fin.cons (1 / cN ^ 2) fun _ => 0) := by
    ext i
    refine Fin.cases ?_ (fun k => ?_) i
    · simp [acousticNormalFlux_zero]
    · simp only [acousticNormalFlux_succ, Fin.cons_zero]
      field_simp
  have := congrFun (hex _ _ hu) 0
  rw [acoustics_flux hd hs hS0 hN0 h] at this
  simp only [Pi.smul_apply, Pi.add_apply, Pi.neg_apply, smul_eq_mul, acoustic_twice _ nF h] at this
  simp [acousticNormalFlux_zero] at this
  field_simp at this
  apply hne
  linarith

/-- **C162 (Maxwell, false).** For any two materials with different ε√(1/(εμ)) (the admittance), a constant electric field along the
interface is not preserved. -/
theorem C162_maxwellInterface_false {sqrt : K → K} {invert : Maxwell.Invert K} (hi : Inverts invert) {epsS muS epsN muN : K}
    (he0 : 0 < epsS) (hm0 : 0 < muS) (he : RootOf sqrt epsS) (hm : RootOf sqrt muS) (hem : RootOf sqrt (epsS * muS))
    (he0' : 0 < epsN) (hm0' : 0 < muN) (he' : RootOf sqrt epsN) (hm' : RootOf sqrt muN) (hem' : RootOf sqrt (epsN * muN))
    (hne : epsS / sqrt (epsS * muS) ≠ epsN / sqrt (epsN * muN)) :
    ¬ ExactAtInterface (maxwellNormalFlux epsS muS ![1, 0, 0]) (maxwellNormalFlux epsN muN ![1, 0, 0])
      (Maxwell.numericalFlux sqrt invert epsS muS epsN muN ![1, 0, 0]) := by
  have h : (![1, 0, 0] : Fin 3 → K) ⬝ᵥ ![1, 0, 0] = 1 := by simp
  have hr : ∀ {e m : K}, 0 < e → 0 < m → RootOf sqrt (e * m) → sqrt (e * m) ≠ 0 := by
    intro e m h1 h2 h3 hh
    have := h3.1
    rw [hh, zero_mul] at this
    exact (mul_pos h1 h2).ne this
  have r1 := hr he0 hm0 hem
  have r2 := hr he0' hm0' hem'
  intro hex
  have hu : maxwellNormalFlux epsS muS ![1, 0, 0] ![0, epsS, 0, 0, 0, 0] = maxwellNormalFlux epsN muN ![1, 0, 0] ![0, epsN, 0, 0, 0, 0] := by
    ext i
    fin_cases i <;> simp [maxwellNormalFlux, cross_apply, dPart, bPart, he0.ne', he0'.ne']
  have := congrFun (hex _ _ hu) 1
  unfold Maxwell.numericalFlux at this
  rw [(maxwell_parts hi he0 hm0 he hm hem h _).1, (maxwell_parts hi he0' hm0' he' hm' hem' h _).2] at this
  have e1 := hem.1
  have e2 := hem'.1
  simp [maxwellNormalFlux, cross_apply, dPart, bPart, he0.ne', he0'.ne'] at this
  apply hne
  rw [div_eq_div_iff r1 r2]
  have q : sqrt (epsS * muS) * muN = sqrt (epsN * muN) * muS := by
    field_simp at this
    linear_combination this
  refine mul_left_cancel₀ (mul_ne_zero hm0.ne' hm0'.ne') ?_
  linear_combination (-(sqrt (epsN * muN)) * muN) * e1 + (sqrt (epsS * muS) * muS) * e2 + sqrt (epsN * muN) * sqrt (epsS * muS) * q

/-! ### C163: the residuals -/

/-- **C163 (volume, acoustics).** The residual of the cell is the quadrature of minus the flux in the direction of the gradient of
the test function. -/
theorem C163_acousticVolume (overintegration : Int) (geo : CellGeo K P d) (par : Acoustics.CellParam K P d) (lfs : Basis K P d n)
    (x : Fin (d + 1) × Fin n → K) (ho : lfs.order < 20) :
    ∃ calls, Acoustics.alphaVolume overintegration geo par lfs x = some calls ∧ ∀ i k, total calls (i, k) =
      quadrature (geo.quadratureRule (overintegration + 2 * lfs.order)) geo.integrationElement
        fun p => -acousticNormalFlux (par.c geo.center) (geo.jacobianInverseTransposed p *ᵥ lfs.js p k) (femFunction lfs.phi x p) i := by
  refine ⟨_, withCache_some (by simpa using ho) _, fun i k => ?_⟩
  refine total_quadrature _ _ _ _ _ fun p w => ?_
  rw [total_acoustics_volume_point]
  congr 2
  rw [acousticNormalFlux, Matrix.mulVec, dotProduct]
  refine Finset.sum_congr rfl fun j _ => ?_
  congr 1
  refine Fin.cases ?_ (fun l => ?_) i
  · rfl
  · simp only [Fin.cases_succ, acousticFlux, Matrix.of_apply, pow_two]
    rfl

/-- **C163 (faces, acoustics).** The residual of an inner face is the quadrature of the numerical flux times the test function, with
opposite signs for the two cells; on the boundary the outer state is the one the parameters give. -/
theorem C163_acousticFaces (solve : Acoustics.Solve K) (overintegration : Int) (geo : FaceGeo K P Q d) (geoIn geoOut : CellGeo K P d)
    (parIn parOut : Acoustics.CellParam K P d) (g : Q → (Fin (d + 1) → K) → Fin (d + 1) → K) (lfsS : Basis K P d ns)
    (lfsN : Basis K P d nn) (xS : Fin (d + 1) × Fin ns → K) (xN : Fin (d + 1) × Fin nn → K) (hS : lfsS.order < 20)
    (hN : lfsN.order < 20) :
    (∃ calls, Acoustics.alphaSkeleton solve overintegration geo geoIn geoOut parIn parOut lfsS lfsN xS xN = some calls ∧
      (∀ i k, total calls (.inl (i, k)) =
        quadrature (geo.quadratureRule (overintegration + 1 + 2 * max lfsS.order lfsN.order)) geo.integrationElement fun p =>
          Acoustics.numericalFlux solve (parIn.c geoIn.center) (parOut.c geoOut.center) geo.centerUnitOuterNormal
            (femFunction lfsS.phi xS (geo.inInside p)) (femFunction lfsN.phi xN (geo.inOutside p)) i * lfsS.phi (geo.inInside p) k) ∧
      ∀ i k, total calls (.inr (i, k)) =
        quadrature (geo.quadratureRule (overintegration + 1 + 2 * max lfsS.order lfsN.order)) geo.integrationElement fun p =>
          -Acoustics.numericalFlux solve (parIn.c geoIn.center) (parOut.c geoOut.center) geo.centerUnitOuterNormal
            (femFunction lfsS.phi xS (geo.inInside p)) (femFunction lfsN.phi xN (geo.inOutside p)) i * lfsN.phi (geo.inOutside p) k) ∧
    ∃ calls, Acoustics.alphaBoundary solve overintegration geo geoIn parIn g lfsS xS = some calls ∧
      ∀ i k, total calls (i, k) =
        quadrature (geo.quadratureRule (overintegration + 1 + 2 * lfsS.order)) geo.integrationElement fun p =>
          Acoustics.numericalFlux solve (parIn.c geoIn.center) (parIn.c geoIn.center) geo.centerUnitOuterNormal
            (femFunction lfsS.phi xS (geo.inInside p)) (g p (femFunction lfsS.phi xS (geo.inInside p))) i
            * lfsS.phi (geo.inInside p) k := by
  refine ⟨⟨_, withCache_some (by simp [hS, hN]) _, fun i k => ?_, fun i k => ?_⟩, _, withCache_some (by simpa using hS) _, fun i k => ?_⟩
  · exact total_quadrature _ _ _ _ _ fun p w => total_faceCalls_inl _ _ _ _ i k
  · exact total_quadrature _ _ _ _ _ fun p w => total_faceCalls_inr _ _ _ _ i k
  · exact total_quadrature _ _ _ _ _ fun p w => total_forBasis _ i k

/-- **C163 (source, acoustics).** -/
theorem C163_acousticSource (overintegration : Int) (geo : CellGeo K P d) (par : Acoustics.CellParam K P d) (lfs : Basis K P d n)
    (ho : lfs.order < 20) :
    ∃ calls, Acoustics.lambdaVolume overintegration geo par lfs = some calls ∧ ∀ i k, total calls (i, k) =
      quadrature (geo.quadratureRule (overintegration + 2 * lfs.order)) geo.integrationElement
        fun p => -par.q p i * lfs.phi p k := by
  refine ⟨_, withCache_some (by simpa using ho) _, fun i k => ?_⟩
  exact total_quadrature _ _ _ _ _ fun p w => total_forComponents _ i k

/-- **C163 (volume, Maxwell).** -/
theorem C163_maxwellVolume (overintegration : Int) (geo : CellGeo K P 3) (par : Maxwell.CellParam K P) (lfs : Basis K P 3 n)
    (x : Fin 6 × Fin n → K) (ho : lfs.order < 20) :
    ∃ calls, Maxwell.alphaVolume overintegration geo par lfs x = some calls ∧ ∀ i k, total calls (i, k) =
      quadrature (geo.quadratureRule (overintegration + 2 * lfs.order)) geo.integrationElement fun p =>
        -maxwellNormalFlux (par.eps geo.center) (par.mu geo.center) (geo.jacobianInverseTransposed p *ᵥ lfs.js p k)
          (femFunction lfs.phi x p) i +
        (if i.val < 3 then par.sigma geo.center / par.eps geo.center * femFunction lfs.phi x p i * lfs.phi p k else 0) := by
  refine ⟨_, withCache_some (by simpa using ho) _, fun i k => ?_⟩
  refine total_quadrature _ _ _ _ _ fun p w => ?_
  rw [total_maxwell_volume_point]
  rfl

/-- **C163 (faces, Maxwell).** -/
theorem C163_maxwellFaces (sqrt : K → K) (invert : Maxwell.Invert K) (overintegration : Int) (geo : FaceGeo K P Q 3)
    (geoIn geoOut : CellGeo K P 3) (parIn parOut : Maxwell.CellParam K P) (g : Q → (Fin 6 → K) → Fin 6 → K) (lfsS : Basis K P 3 ns)
    (lfsN : Basis K P 3 nn) (xS : Fin 6 × Fin ns → K) (xN : Fin 6 × Fin nn → K) (hS : lfsS.order < 20) (hN : lfsN.order < 20) :
    (∃ calls, Maxwell.alphaSkeleton sqrt invert overintegration geo geoIn geoOut parIn parOut lfsS lfsN xS xN = some calls ∧
      (∀ i k, total calls (.inl (i, k)) =
        quadrature (geo.quadratureRule (overintegration + 1 + 2 * max lfsS.order lfsN.order)) geo.integrationElement fun p =>
          Maxwell.numericalFlux sqrt invert (parIn.eps geoIn.center) (parIn.mu geoIn.center) (parOut.eps geoOut.center)
            (parOut.mu geoOut.center) geo.centerUnitOuterNormal
            (femFunction lfsS.phi xS (geo.inInside p)) (femFunction lfsN.phi xN (geo.inOutside p)) i * lfsS.phi (geo.inInside p) k) ∧
      ∀ i k, total calls (.inr (i, k)) =
        quadrature (geo.quadratureRule (overintegration + 1 + 2 * max lfsS.order lfsN.order)) geo.integrationElement fun p =>
          -Maxwell.numericalFlux sqrt invert (parIn.eps geoIn.center) (parIn.mu geoIn.center) (parOut.eps geoOut.center)
            (parOut.mu geoOut.center) geo.centerUnitOuterNormal
            (femFunction lfsS.phi xS (geo.inInside p)) (femFunction lfsN.phi xN (geo.inOutside p)) i * lfsN.phi (geo.inOutside p) k) ∧
    ∃ calls, Maxwell.alphaBoundary sqrt invert overintegration geo geoIn parIn g lfsS xS = some calls ∧
      ∀ i k, total calls (i, k) =
        quadrature (geo.quadratureRule (overintegration + 1 + 2 * lfsS.order)) geo.integrationElement fun p =>
          Maxwell.numericalFlux sqrt invert (parIn.eps geoIn.center) (parIn.mu geoIn.center) (parIn.eps geoIn.center)
            (parIn.mu geoIn.center) geo.centerUnitOuterNormal
            (femFunction lfsS.phi xS (geo.inInside p)) (g p (femFunction lfsS.phi xS (geo.inInside p))) i
            * lfsS.phi (geo.inInside p) k := by
  refine ⟨⟨_, withCache_some (by simp [hS, hN]) _, fun i k => ?_, fun i k => ?_⟩, _, withCache_some (by simpa using hS) _, fun i k => ?_⟩
  · exact total_quadrature _ _ _ _ _ fun p w => total_faceCalls_inl _ _ _ _ i k
  · exact total_quadrature _ _ _ _ _ fun p w => total_faceCalls_inr _ _ _ _ i k
  · exact total_quadrature _ _ _ _ _ fun p w => total_forBasis _ i k

/-- **C163 (source, Maxwell).** -/
theorem C163_maxwellSource (overintegration : Int) (geo : CellGeo K P 3) (par : Maxwell.CellParam K P) (lfs : Basis K P 3 n)
    (ho : lfs.order < 20) :
    ∃ calls, Maxwell.lambdaVolume overintegration geo par lfs = some calls ∧ ∀ i k, total calls (i, k) =
      quadrature (geo.quadratureRule (overintegration + 2 * lfs.order)) geo.integrationElement
        fun p => -par.j p i * lfs.phi p k := by
  refine ⟨_, withCache_some (by simpa using ho) _, fun i k => ?_⟩
  exact total_quadrature _ _ _ _ _ fun p w => total_forComponents _ i k

/-- **C163 (conservation, acoustics).** What leaves one cell across an inner face enters the other one: if the constants are in both
local spaces, the residuals of the two cells, tested with 1, cancel for every component. -/
theorem C163_acousticConservative (solve : Acoustics.Solve K) (overintegration : Int) (geo : FaceGeo K P Q d)
    (geoIn geoOut : CellGeo K P d) (parIn parOut : Acoustics.CellParam K P d) (lfsS : Basis K P d ns)
    (lfsN : Basis K P d nn) (a : Fin ns → K) (b : Fin nn → K) (ha : ∀ p, ∑ k, a k * lfsS.phi p k = 1)
    (hb : ∀ p, ∑ k, b k * lfsN.phi p k = 1) (xS : Fin (d + 1) × Fin ns → K) (xN : Fin (d + 1) × Fin nn → K)
    (calls : Calls ((Fin (d + 1) × Fin ns) ⊕ (Fin (d + 1) × Fin nn)) K)
    (h : Acoustics.alphaSkeleton solve overintegration geo geoIn geoOut parIn parOut lfsS lfsN xS xN = some calls) (i : Fin (d + 1)) :
    ∑ k, a k * total calls (.inl (i, k)) + ∑ k, b k * total calls (.inr (i, k)) = 0 := by
  simp only [Acoustics.alphaSkeleton, withCache] at h
  split at h
  · obtain rfl := Option.some.inj h
    exact faces_conservative (phiS := fun q => lfsS.phi (geo.inInside q)) (phiN := fun q => lfsN.phi (geo.inOutside q)) a b
      (fun _ => ha _) (fun _ => hb _) _ (fun q => Acoustics.numericalFlux solve (parIn.c geoIn.center) (parOut.c geoOut.center)
        geo.centerUnitOuterNormal (evaluate xS (lfsS.phi (geo.inInside q))) (evaluate xN (lfsN.phi (geo.inOutside q)))) _ i
  · exact absurd h (by simp)

/-- **C163 (conservation, Maxwell).** -/
theorem C163_maxwellConservative (sqrt : K → K) (invert : Maxwell.Invert K) (overintegration : Int) (geo : FaceGeo K P Q 3)
    (geoIn geoOut : CellGeo K P 3) (parIn parOut : Maxwell.CellParam K P) (lfsS : Basis K P 3 ns)
    (lfsN : Basis K P 3 nn) (a : Fin ns → K) (b : Fin nn → K) (ha : ∀ p, ∑ k, a k * lfsS.phi p k = 1)
    (hb : ∀ p, ∑ k, b k * lfsN.phi p k = 1) (xS : Fin 6 × Fin ns → K) (xN : Fin 6 × Fin nn → K)
    (calls : Calls ((Fin 6 × Fin ns) ⊕ (Fin 6 × Fin nn)) K)
    (h : Maxwell.alphaSkeleton sqrt invert overintegration geo geoIn geoOut parIn parOut lfsS lfsN xS xN = some calls) (i : Fin 6) :
    ∑ k, a k * total calls (.inl (i, k)) + ∑ k, b k * total calls (.inr (i, k)) = 0 := by
  simp only [Maxwell.alphaSkeleton, withCache] at h
  split at h
  · obtain rfl := Option.some.inj h
    exact faces_conservative (phiS := fun q => lfsS.phi (geo.inInside q)) (phiN := fun q => lfsN.phi (geo.inOutside q)) a b
      (fun _ => ha _) (fun _ => hb _) _ (fun q => Maxwell.numericalFlux sqrt invert (parIn.eps geoIn.center) (parIn.mu geoIn.center)
        (parOut.eps geoOut.center) (parOut.mu geoOut.center) geo.centerUnitOuterNormal (evaluate xS (lfsS.phi (geo.inInside q)))
        (evaluate xN (lfsN.phi (geo.inOutside q)))) _ i
  · exact absurd h (by simp)

/-- **C163 (order).** The operators work exactly for bases of order less than 20. -/
theorem C163_order (solve : Acoustics.Solve K) (sqrt : K → K) (invert : Maxwell.Invert K) (overintegration : Int)
    (geo : FaceGeo K P Q d) (geoIn geoOut : CellGeo K P d) (geo₃ : FaceGeo K P Q 3) (geoIn₃ geoOut₃ : CellGeo K P 3)
    (parIn parOut : Acoustics.CellParam K P d) (parIn₃ parOut₃ : Maxwell.CellParam K P)
    (g : Q → (Fin (d + 1) → K) → Fin (d + 1) → K) (g₃ : Q → (Fin 6 → K) → Fin 6 → K) (lfsS : Basis K P d ns)
    (lfsN : Basis K P d nn) (lfsS₃ : Basis K P 3 ns) (lfsN₃ : Basis K P 3 nn) (xS : Fin (d + 1) × Fin ns → K)
    (xN : Fin (d + 1) × Fin nn → K) (xS₃ : Fin 6 × Fin ns → K) (xN₃ : Fin 6 × Fin nn → K) :
    ((Acoustics.alphaVolume overintegration geoIn parIn lfsS xS).isSome ↔ lfsS.order < 20) ∧
    ((Acoustics.alphaSkeleton solve overintegration geo geoIn geoOut parIn parOut lfsS lfsN xS xN).isSome ↔
      lfsS.order < 20 ∧ lfsN.order < 20) ∧
    ((Acoustics.alphaBoundary solve overintegration geo geoIn parIn g lfsS xS).isSome ↔ lfsS.order < 20) ∧
    ((Acoustics.lambdaVolume overintegration geoIn parIn lfsS).isSome ↔ lfsS.order < 20) ∧
    ((Maxwell.alphaVolume overintegration geoIn₃ parIn₃ lfsS₃ xS₃).isSome ↔ lfsS₃.order < 20) ∧
    ((Maxwell.alphaSkeleton sqrt invert overintegration geo₃ geoIn₃ geoOut₃ parIn₃ parOut₃ lfsS₃ lfsN₃ xS₃ xN₃).isSome ↔
      lfsS₃.order < 20 ∧ lfsN₃.order < 20) ∧
    ((Maxwell.alphaBoundary sqrt invert overintegration geo₃ geoIn₃ parIn₃ g₃ lfsS₃ xS₃).isSome ↔ lfsS₃.order < 20) ∧
    ((Maxwell.lambdaVolume overintegration geoIn₃ parIn₃ lfsS₃).isSome ↔ lfsS₃.order < 20) := by
  refine ⟨(withCache_isSome _ _).trans ?_, (withCache_isSome _ _).trans ?_, (withCache_isSome _ _).trans ?_,
    (withCache_isSome _ _).trans ?_, (withCache_isSome _ _).trans ?_, (withCache_isSome _ _).trans ?_, (withCache_isSome _ _).trans ?_,
    (withCache_isSome _ _).trans ?_⟩ <;> simp

/-! ### C164: the temporal operators -/

/-- **C164 (mass).** The residual is the L2 product with the test functions, component by component; the Jacobian is its derivative:
the same mass matrix in every diagonal block, zero in all others. -/
theorem C164_mass (overintegration : Int) (geo : CellGeo K P d) (lfs : Basis K P d n) (ho : lfs.order < 20) :
    ∃ (r : (Fin m × Fin n → K) → Calls (Fin m × Fin n) K) (J : Calls ((Fin m × Fin n) × (Fin m × Fin n)) K),
      (∀ x, Temporal.alphaVolume overintegration geo lfs x = some (r x)) ∧
      Temporal.jacobianVolume m overintegration geo lfs = some J ∧
      (∀ x i k, total (r x) (i, k) =
        quadrature (geo.quadratureRule (overintegration + 2 * lfs.order)) geo.integrationElement
          fun p => femFunction lfs.phi x p i * lfs.phi p k) ∧
      (∀ i k i' k', total J ((i, k), (i', k')) = if i = i' then
        quadrature (geo.quadratureRule (overintegration + 2 * lfs.order)) geo.integrationElement
          fun p => lfs.phi p k' * lfs.phi p k else 0) ∧
      IsAffineWith (fun x => total (r x)) (total J) ∧
      ∀ c ∈ J, c.1 ∈ Temporal.patternVolume m n n := by
  have hr : ∀ (x : Fin m × Fin n → K) i k, total ((geo.quadratureRule (overintegration + 2 * lfs.order)).flatMap fun (p, w) =>
      forComponents fun i k => evaluate x (lfs.phi p) i * lfs.phi p k * (w * geo.integrationElement p)) (i, k) =
      quadrature (geo.quadratureRule (overintegration + 2 * lfs.order)) geo.integrationElement
          fun p => femFunction lfs.phi x p i * lfs.phi p k := fun x i k =>
    total_quadrature _ _ _ _ _ fun p w => total_forComponents _ i k
  have hJ : ∀ (i : Fin m) k (i' : Fin m) k', total ((geo.quadratureRule (overintegration + 2 * lfs.order)).flatMap fun (p, w) =>
      (List.finRange m).flatMap fun c => (List.finRange n).flatMap fun i => (List.finRange n).map fun j =>
      (((c, i), (c, j)), lfs.phi p j * lfs.phi p i * (w * geo.integrationElement p))) ((i, k), (i', k')) =
      if i = i' then quadrature (geo.quadratureRule (overintegration + 2 * lfs.order)) geo.integrationElement
          fun p => lfs.phi p k' * lfs.phi p k else 0 := by
    intro i k i' k'
    rw [total_quadrature _ geo.integrationElement (fun p => if i = i' then lfs.phi p k' * lfs.phi p k else 0) _ _
      fun p w => total_mass_point (lfs.phi p) (w * geo.integrationElement p) i i' k k']
    split
    · rfl
    · simp [quadrature]
  obtain ⟨r, J, h1, h2, h3, h4, h5⟩ : ∃ (r : (Fin m × Fin n → K) → Calls (Fin m × Fin n) K)
      (J : Calls ((Fin m × Fin n) × (Fin m × Fin n)) K),
      (∀ x, Temporal.alphaVolume overintegration geo lfs x = some (r x)) ∧
      Temporal.jacobianVolume m overintegration geo lfs = some J ∧
      (∀ x i k, total (r x) (i, k) =
        quadrature (geo.quadratureRule (overintegration + 2 * lfs.order)) geo.integrationElement
          fun p => femFunction lfs.phi x p i * lfs.phi p k) ∧
      (∀ i k i' k', total J ((i, k), (i', k')) = if i = i' then
        quadrature (geo.quadratureRule (overintegration + 2 * lfs.order)) geo.integrationElement
          fun p => lfs.phi p k' * lfs.phi p k else 0) ∧
      ∀ c ∈ J, c.1 ∈ Temporal.patternVolume m n n := by
    refine ⟨_, _, fun x => withCache_some (by simpa using ho) _, withCache_some (by simpa using ho) _, hr, hJ, ?_⟩
    intro c hc
    simp only [List.mem_flatMap, List.mem_map, List.mem_finRange, true_and] at hc
    obtain ⟨q, -, i, j, k, rfl⟩ := hc
    simp [Temporal.patternVolume]
  refine ⟨r, J, h1, h2, h3, h4, ?_, h5⟩
  rintro x z ⟨i, k⟩
  simp only [h3]
  unfold applyMatrix
  rw [Fintype.sum_prod_type, Finset.sum_eq_single i]
  · simp only [h4, if_true]
    have : ∀ k', quadrature (geo.quadratureRule (overintegration + 2 * lfs.order)) geo.integrationElement
        (fun p => lfs.phi p k' * lfs.phi p k) * z (i, k') = quadrature (geo.quadratureRule (overintegration + 2 * lfs.order))
        geo.integrationElement (fun p => z (i, k') * (lfs.phi p k' * lfs.phi p k)) := fun k' => by
      rw [quadrature_smul, mul_comm]
    simp only [this]
    rw [← quadrature_sum, ← quadrature_add]
    congr 1
    ext p
    simp only [femFunction, Pi.add_apply, add_mul, Finset.sum_add_distrib, Finset.sum_mul]
    congr 1
    exact Finset.sum_congr rfl fun j _ => by ring
  · intro b _ hb
    refine Finset.sum_eq_zero fun j _ => ?_
    rw [h4, if_neg (Ne.symm hb), zero_mul]
  · simp

/-! ### C165: the time of the coefficients -/

/-- **C165 (set).** After any calls of `setTime`, the operators for convection-diffusion problems and for the Navier-Stokes equations
evaluate their parameters at the time set last. The operators for the discontinuous Galerkin method and for the Navier-Stokes
equations return this time from `getTime`. Missing: the other operators, see `C165_time_false`. -/
theorem C165_time_partial {T : Type} (op : LocalOperator) (ts : List T) (t : T) (s : Clocks T) :
    (op ≠ .linearAcousticsDG → op ≠ .maxwellDG → ((ts ++ [t]).foldl (fun s t => op.setTime t s) s).parameter = t) ∧
    (op ∈ [.convectionDiffusionDG, .dgNavierStokes, .dgNavierStokesVelVecFEM, .taylorHoodNavierStokes] →
      ((ts ++ [t]).foldl (fun s t => op.setTime t s) s).operator = t) := by
  simp only [List.foldl_append, List.foldl_cons, List.foldl_nil]
  constructor
  · intro h1 h2
    cases op <;> first | rfl | contradiction
  · intro h
    cases op <;> first | rfl | (simp at h)

/-- **C165 (set, false).** However often the time is set, the operators for acoustics and for Maxwell's equations evaluate the
parameters at the time they had in the beginning; and `getTime` of these and three other operators returns the time it returned in
the beginning. -/
theorem C165_time_false {T : Type} (op : LocalOperator) (ts : List T) (s : Clocks T) :
    (op ∈ [.linearAcousticsDG, .maxwellDG] → (ts.foldl (fun s t => op.setTime t s) s).parameter = s.parameter) ∧
    (op ∈ [.linearAcousticsDG, .maxwellDG, .convectionDiffusionCCFV, .convectionDiffusionFEM, .nonlinearConvectionDiffusionFEM] →
      (ts.foldl (fun s t => op.setTime t s) s).operator = s.operator) := by
  induction ts generalizing s with
  | nil => simp
  | cons t ts ih =>
    simp only [List.foldl_cons]
    constructor
    · intro h
      rw [(ih _).1 h]
      cases op <;> first | rfl | (simp at h)
    · intro h
      rw [(ih _).2 h]
      cases op <;> first | rfl | (simp at h)

end

/-! ### The hypotheses can be met -/

private theorem exists_solve : ∃ solve : Acoustics.Solve Rat, Solves solve :=
  ⟨fun _ M b => M⁻¹ *ᵥ b, fun _ M b h => by
    rw [Matrix.mulVec_mulVec, Matrix.mul_nonsing_inv M (isUnit_iff_ne_zero.mpr h), Matrix.one_mulVec]⟩

private theorem exists_invert : ∃ invert : Maxwell.Invert Rat, Inverts invert :=
  ⟨fun M => M⁻¹, fun M h => Matrix.mul_nonsing_inv M (isUnit_iff_ne_zero.mpr h)⟩

private def root (a : Rat) : Rat := if a = 4 then 2 else 1

private instance (a : Rat) : Decidable (RootOf root a) := by unfold RootOf; infer_instance

private theorem root_one : RootOf root 1 := by decide +kernel
private theorem root_four : RootOf root 4 := by decide +kernel

/-- A normal that is not along an axis. -/
private def normal : Fin 3 → Rat := ![2 / 3, -1 / 3, 2 / 3]
private theorem normal_unit : normal ⬝ᵥ normal = 1 := by decide +kernel

-- C161: eigenvectors for speed of sound 3 and this normal
example : (Acoustics.eigenvectorsTransposed 3 (3 : Rat) normal).det ≠ 0 :=
  (C161_acousticEigenvectors (Or.inr (Or.inr rfl)) (by norm_num) normal_unit).2.1
example : Acoustics.eigenvectorsTransposed 2 (3 : Rat) ![3 / 5, 4 / 5] = !![0, -4 / 5, 3 / 5; 1, 9 / 5, 12 / 5; -1, 9 / 5, 12 / 5] := by
  decide +kernel
example : (Maxwell.eigenvectors root 4 1 normal).det ≠ 0 :=
  (C161_maxwellEigenvectors (by norm_num) (by norm_num) root_four root_one (by decide +kernel) normal_unit).2
-- C161: the flux of two states of the same fluid
example : ∃ solve : Acoustics.Solve Rat, Solves solve ∧ ∀ uS uN : Fin 4 → Rat,
    acousticEnergy 3 (acousticNormalFlux 3 normal uS) uS / 2 - acousticEnergy 3 (acousticNormalFlux 3 normal uN) uN / 2 ≤
      acousticEnergy 3 (Acoustics.numericalFlux solve 3 3 normal uS uN) (uS - uN) := by
  obtain ⟨solve, h⟩ := exists_solve
  exact ⟨solve, h, C161_acousticEnergy (Or.inr (Or.inr rfl)) h (by norm_num) normal_unit⟩
example : ∃ (solve : Acoustics.Solve Rat) (uS pS qS uN pN qN : Fin 4 → Rat), Solves solve ∧
    IsWaveSplitting (acousticNormalFlux 3 normal) 3 uS pS qS ∧ IsWaveSplitting (acousticNormalFlux 5 normal) 5 uN pN qN ∧
    Acoustics.numericalFlux solve 3 5 normal uS uN = (3 : Rat) • pS + -(5 : Rat) • qN := by
  obtain ⟨solve, h⟩ := exists_solve
  have h1 := C161_acousticUpwind (Or.inr (Or.inr rfl)) h (cS := 3) (cN := 5) (by norm_num) (by norm_num) normal_unit
  have h2 := C161_acousticUpwind (Or.inr (Or.inr rfl)) h (cS := 5) (cN := 3) (by norm_num) (by norm_num) normal_unit
  obtain ⟨p, q, hS⟩ := h1.2 ![1, 2, 3, 4]
  obtain ⟨p', q', hN⟩ := h2.2 ![4, 3, 2, 1]
  exact ⟨solve, _, p, q, _, p', q', h, hS, hN, h1.1 _ _ _ _ _ _ hS hN⟩
example : ∃ (invert : Maxwell.Invert Rat) (uS pS qS uN pN qN : Fin 6 → Rat), Inverts invert ∧
    IsWaveSplitting (maxwellNormalFlux 4 1 normal) (1 / 2) uS pS qS ∧ IsWaveSplitting (maxwellNormalFlux 1 1 normal) (1 / 1) uN pN qN ∧
    Maxwell.numericalFlux root invert 4 1 1 1 normal uS uN = (1 / 2 : Rat) • pS + -(1 / 1 : Rat) • qN := by
  obtain ⟨invert, h⟩ := exists_invert
  have r2 : root (4 * 1) = 2 := by decide +kernel
  have r1 : root (1 * 1) = 1 := by decide +kernel
  have h1 := C161_maxwellUpwind h (epsS := 4) (muS := 1) (epsN := 1) (muN := 1) (by norm_num) (by norm_num) root_four root_one
    (by decide +kernel) (by norm_num) (by norm_num) root_one root_one (by decide +kernel) normal_unit
  have h2 := C161_maxwellUpwind h (epsS := 1) (muS := 1) (epsN := 4) (muN := 1) (by norm_num) (by norm_num) root_one root_one
    (by decide +kernel) (by norm_num) (by norm_num) root_four root_one (by decide +kernel) normal_unit
  rw [r1, r2] at h1 h2
  obtain ⟨p, q, hS⟩ := h1.2 ![1, 2, 3, 4, 5, 6]
  obtain ⟨p', q', hN⟩ := h2.2 ![4, 3, 2, 1, 0, 1]
  exact ⟨invert, _, p, q, _, p', q', h, hS, hN, h1.1 _ _ _ _ _ _ hS hN⟩
example : ∃ invert : Maxwell.Invert Rat, Inverts invert ∧ ∀ uS uN : Fin 6 → Rat,
    maxwellEnergy 4 1 (maxwellNormalFlux 4 1 normal uS) uS / 2 - maxwellEnergy 4 1 (maxwellNormalFlux 4 1 normal uN) uN / 2 ≤
      maxwellEnergy 4 1 (Maxwell.numericalFlux root invert 4 1 4 1 normal uS uN) (uS - uN) := by
  obtain ⟨invert, h⟩ := exists_invert
  exact ⟨invert, h, C161_maxwellEnergy h (by norm_num) (by norm_num) root_four root_one (by decide +kernel) normal_unit⟩

-- C162: air and water, vacuum and glass
example : ∃ solve : Acoustics.Solve Rat, Solves solve ∧
    ¬ ExactAtInterface (acousticNormalFlux 340 normal) (acousticNormalFlux 1500 normal) (Acoustics.numericalFlux solve 340 1500 normal) := by
  obtain ⟨solve, h⟩ := exists_solve
  exact ⟨solve, h, C162_acousticInterface_false (Or.inr (Or.inr rfl)) h (by norm_num) (by norm_num) (by norm_num) normal_unit⟩
example : ∃ invert : Maxwell.Invert Rat, Inverts invert ∧
    ¬ ExactAtInterface (maxwellNormalFlux 1 1 ![1, 0, 0]) (maxwellNormalFlux 4 1 ![1, 0, 0])
      (Maxwell.numericalFlux root invert 1 1 4 1 ![1, 0, 0]) := by
  obtain ⟨invert, h⟩ := exists_invert
  exact ⟨invert, h, C162_maxwellInterface_false h (by norm_num) (by norm_num) root_one root_one (by decide +kernel) (by norm_num)
    (by norm_num) root_four root_one (by decide +kernel) (by decide +kernel)⟩
example : ∃ solve : Acoustics.Solve Rat, Solves solve ∧ ∀ u, Acoustics.numericalFlux solve 340 340 normal u u = acousticNormalFlux 340 normal u := by
  obtain ⟨solve, h⟩ := exists_solve
  exact ⟨solve, h, fun u => C162_acousticInterface_partial (Or.inr (Or.inr rfl)) h (by norm_num) normal_unit u u rfl⟩
example : ∃ invert : Maxwell.Invert Rat, Inverts invert ∧ ∀ u, Maxwell.numericalFlux root invert 4 1 4 1 normal u u
    = maxwellNormalFlux 4 1 normal u := by
  obtain ⟨invert, h⟩ := exists_invert
  exact ⟨invert, h, fun u => C162_maxwellInterface_partial h (by norm_num) (by norm_num) root_four root_one (by decide +kernel)
    normal_unit u u rfl⟩

/-- The linear basis 1-x, x on the unit interval. -/
private def linearBasis : Basis Rat Rat 1 2 := ⟨1, fun p => ![1 - p, p], fun _ => ![![-1], ![1]]⟩
private def interval : CellGeo Rat Rat 1 :=
  ⟨1 / 2, 1, fun p _ => p, fun _ => 1, fun _ => 1, fun _ => [(0, 1 / 6), (1 / 2, 2 / 3), (1, 1 / 6)]⟩
private def endPoint : FaceGeo Rat Rat Unit 1 :=
  ⟨(), 1, 1, fun _ _ => 1, fun _ => 1, fun _ => 1, fun _ => 0, fun _ => 1, fun _ _ => 1, fun _ => [((), 1)]⟩
private def fluid : Acoustics.CellParam Rat Rat 1 := ⟨fun _ => 3, fun p => ![p, 1]⟩

-- C163: a linear pressure and a constant velocity on an interval; a face between two intervals
example : (Acoustics.alphaVolume 0 interval fluid linearBasis fun i => if i.1 = 0 then i.2.val else 2).map
    (fun c => (total c (0, 0), total c (0, 1), total c (1, 0), total c (1, 1))) = some (2, -2, 9 / 2, -9 / 2) := by decide +kernel
example : (Acoustics.lambdaVolume 0 interval fluid linearBasis).map
    (fun c => (total c (0, 0), total c (0, 1), total c (1, 0), total c (1, 1))) = some (-1 / 6, -1 / 3, -1 / 2, -1 / 2) := by decide +kernel
example (solve : Acoustics.Solve Rat) (x y : Fin 2 × Fin 2 → Rat) :
    ∃ calls, Acoustics.alphaSkeleton solve 0 endPoint interval interval fluid fluid linearBasis linearBasis x y = some calls ∧
      ∀ i, ∑ k, 1 * total calls (.inl (i, k)) + ∑ k, 1 * total calls (.inr (i, k)) = 0 := by
  obtain ⟨calls, h, -⟩ := (C163_acousticFaces solve 0 endPoint interval interval fluid fluid (fun _ u => u) linearBasis linearBasis x y
    (by decide) (by decide)).1
  refine ⟨calls, h, C163_acousticConservative solve 0 endPoint interval interval fluid fluid linearBasis linearBasis _ _ ?_ ?_ x y
    calls h⟩ <;> intro p <;> simp [linearBasis]

private def constantBasis : Basis Rat Unit 3 1 := ⟨0, fun _ _ => 1, fun _ _ => ![1, 0, 0]⟩
private def cell : CellGeo Rat Unit 3 := ⟨(), 1, fun _ _ => 0, fun _ => 1, fun _ => 1, fun _ => [((), 1)]⟩
private def side : FaceGeo Rat Unit Unit 3 :=
  ⟨(), 1, 1, fun _ _ => 0, fun _ => 1, fun _ => (), fun _ => (), normal, fun _ => normal, fun _ => [((), 1)]⟩
private def medium : Maxwell.CellParam Rat Unit := ⟨fun _ => 4, fun _ => 1, fun _ => 2, fun _ => ![1, 2, 3, 4, 5, 6]⟩

example : (Maxwell.alphaVolume 0 cell medium constantBasis fun i => i.1.val).map
    (fun c => (List.finRange 6).map fun i => total c (i, 0)) = some [0, -9 / 2, 5, 0, 1 / 2, -1 / 4] := by decide +kernel
example : (Maxwell.lambdaVolume 0 cell medium constantBasis).map
    (fun c => (List.finRange 6).map fun i => total c (i, 0)) = some [-1, -2, -3, -4, -5, -6] := by decide +kernel
example (invert : Maxwell.Invert Rat) (x y : Fin 6 × Fin 1 → Rat) :
    ∃ calls, Maxwell.alphaSkeleton root invert 0 side cell cell medium medium constantBasis constantBasis x y = some calls ∧
      ∀ i, ∑ k, 1 * total calls (.inl (i, k)) + ∑ k, 1 * total calls (.inr (i, k)) = 0 := by
  obtain ⟨calls, h, -⟩ := (C163_maxwellFaces root invert 0 side cell cell medium medium (fun _ u => u) constantBasis constantBasis x y
    (by decide) (by decide)).1
  refine ⟨calls, h, C163_maxwellConservative root invert 0 side cell cell medium medium constantBasis constantBasis _ _ ?_ ?_ x y
    calls h⟩ <;> intro p <;> simp [constantBasis]

-- C164: the mass matrix of linear functions for two components
example : (Temporal.jacobianVolume 2 0 interval linearBasis).map (fun c => (total c ((1, 0), (1, 0)), total c ((1, 0), (1, 1)),
    total c ((0, 0), (1, 0)))) = some (1 / 3, 1 / 6, 0) := by decide +kernel
example : ∃ J, Temporal.jacobianVolume 2 0 interval linearBasis = some J ∧ ∀ c ∈ J, c.1 ∈ Temporal.patternVolume 2 2 2 := by
  obtain ⟨_, J, -, h, -, -, -, h'⟩ := C164_mass (m := 2) 0 interval linearBasis (by decide)
  exact ⟨J, h, h'⟩

-- C165: three stages of a time step
example : ([1 / 2, 3 / 4, 1].foldl (fun s t => LocalOperator.convectionDiffusionDG.setTime t s) (⟨0, 0⟩ : Clocks Rat)).parameter = 1 := by
  decide +kernel
example : ([1 / 2, 3 / 4, 1].foldl (fun s t => LocalOperator.maxwellDG.setTime t s) (⟨0, 0⟩ : Clocks Rat)).parameter = 0 := by
  decide +kernel

end Verif
