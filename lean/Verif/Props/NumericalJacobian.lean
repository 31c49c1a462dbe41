import Verif.Proofs.NumericalJacobian
import Mathlib.Algebra.Order.Ring.Rat
import Mathlib.Algebra.Field.Rat
/-
C49: numerical Jacobians are the matrix of difference quotients, exact for affine residuals.
C84: the application of a numerical Jacobian is this matrix times the vector.
C50: residuals generated from Jacobians are the product of the Jacobian and the coefficients.

The first arguments: `alpha u` lists the calls of `accumulate` a local operator makes for coefficients `u`, `lfsu` and `lfsv` are the local
indices of the trial and test space in their containers, `w` is the weight of the result.
-/
namespace Verif

open NumericalJacobian NumericalJacobian.Spec LocalContainers

section
variable {K : Type} [Field K] [LinearOrder K] [IsStrictOrderedRing K]

/-- C49. For every local operator, epsilon, trial and test space, point, weight and matrix, the numerical `jacobian_volume` (also
`post_skeleton` and `boundary`) adds to the entry (i,j) of the local spaces `w` times the difference quotient of the residual i for
coefficient j, and changes nothing else. -/
theorem C49_difference_quotients (eps : K) (alpha : List K → List (Nat × K)) (lfsu lfsv : List Nat) (x : List K) (w : K) (mat : LocalMatrix K)
    (hm : mat.container.length = mat.rows * mat.cols) (hx : x.length = mat.cols) (hu : Indices mat.cols lfsu) (hv : Indices mat.rows lfsv)
    (ha : ∀ u : List K, u.length = x.length → Inside mat.rows (alpha u)) :
    ∃ mat', jacobianOne eps alpha lfsu lfsv x w mat = some mat' ∧
      Added mat mat' lfsv lfsu (fun i j => w * quotient eps (fun u => value (alpha u) i) x j) :=
  jacobianOne_eq eps alpha lfsu lfsv x w mat hm hx hu hv ha

/-- C49. If every residual is an affine function of the coefficients with gradient `A i`, then for every `eps > 0` the numerical Jacobian
adds exactly `w * A i j`. -/
theorem C49_affine (eps : K) (he : 0 < eps) (alpha : List K → List (Nat × K)) (lfsu lfsv : List Nat) (x : List K) (w : K) (mat : LocalMatrix K)
    (hm : mat.container.length = mat.rows * mat.cols) (hx : x.length = mat.cols) (hu : Indices mat.cols lfsu) (hv : Indices mat.rows lfsv)
    (ha : ∀ u : List K, u.length = x.length → Inside mat.rows (alpha u)) (A : Nat → Nat → K)
    (hA : ∀ i ∈ lfsv, Affine x.length (fun u => value (alpha u) i) (A i)) :
    ∃ mat', jacobianOne eps alpha lfsu lfsv x w mat = some mat' ∧ Added mat mat' lfsv lfsu (fun i j => w * A i j) := by
  obtain ⟨mat', h1, h2⟩ := C49_difference_quotients eps alpha lfsu lfsv x w mat hm hx hu hv ha
  refine ⟨mat', h1, added_congr h2 ?_⟩
  intro i hi j hj
  rw [quotient_affine eps he x.length _ (A i) (hA i hi) x rfl j (by rw [hx]; exact hu.2 j hj)]

/-- C49. The numerical `jacobian_skeleton` adds to each of its four matrices the difference quotients of the residual on the side of the rows
for the coefficients on the side of the columns, with the weight of that matrix. -/
theorem C49_skeleton (eps : K) (alpha : List K → List K → List (Nat × K) × List (Nat × K)) (lfsuS lfsvS lfsuN lfsvN : List Nat)
    (xS xN : List K) (w : Four K) (mat : Four (LocalMatrix K)) (rS rN : Nat)
    (hss : mat.ss.rows = rS ∧ mat.ss.cols = xS.length ∧ mat.ss.container.length = mat.ss.rows * mat.ss.cols)
    (hsn : mat.sn.rows = rS ∧ mat.sn.cols = xN.length ∧ mat.sn.container.length = mat.sn.rows * mat.sn.cols)
    (hns : mat.ns.rows = rN ∧ mat.ns.cols = xS.length ∧ mat.ns.container.length = mat.ns.rows * mat.ns.cols)
    (hnn : mat.nn.rows = rN ∧ mat.nn.cols = xN.length ∧ mat.nn.container.length = mat.nn.rows * mat.nn.cols)
    (huS : Indices xS.length lfsuS) (huN : Indices xN.length lfsuN) (hvS : Indices rS lfsvS) (hvN : Indices rN lfsvN)
    (ha : ∀ us un : List K, us.length = xS.length → un.length = xN.length → Inside rS (alpha us un).1 ∧ Inside rN (alpha us un).2) :
    ∃ mat', jacobianSkeleton eps alpha lfsuS lfsvS lfsuN lfsvN xS xN w mat = some mat' ∧
      Added mat.ss mat'.ss lfsvS lfsuS (fun i j => w.ss * quotient eps (fun u => value (alpha u xN).1 i) xS j) ∧
      Added mat.sn mat'.sn lfsvS lfsuN (fun i j => w.sn * quotient eps (fun u => value (alpha xS u).1 i) xN j) ∧
      Added mat.ns mat'.ns lfsvN lfsuS (fun i j => w.ns * quotient eps (fun u => value (alpha u xN).2 i) xS j) ∧
      Added mat.nn mat'.nn lfsvN lfsuN (fun i j => w.nn * quotient eps (fun u => value (alpha xS u).2 i) xN j) :=
  jacobianSkeleton_eq eps alpha lfsuS lfsvS lfsuN lfsvN xS xN w mat rS rN hss hsn hns hnn huS huN hvS hvN ha

/-- C84. Nonlinear `jacobian_apply_volume` (also `post_skeleton`) adds `w` times the matrix of difference quotients at `x` times `z`. -/
theorem C84_volume (eps : K) (alpha : List K → List (Nat × K)) (lfsu lfsv : List Nat) (x z : List K) (w : K) (y : List K)
    (hz : z.length = x.length) (hu : Indices x.length lfsu) (hv : Indices y.length lfsv)
    (ha : ∀ u : List K, u.length = x.length → Inside y.length (alpha u)) :
    ∃ y', applyVolume eps alpha lfsu lfsv x z w y = some y' ∧
      AddedVec y y' lfsv (fun i => (lfsu.map fun j => w * quotient eps (fun u => value (alpha u) i) x j * z.getD j 0).sum) :=
  applyOne_eq eps alpha lfsu lfsv x z w y hz hu hv ha

/-- C84. The application agrees with the matrix: let `jacobian_volume` fill a matrix of zeros; `jacobian_apply_volume` adds the product of
that matrix and `z` to `y`; the linear version is the case `z = x`. -/
theorem C84_matrix_free (eps : K) (alpha : List K → List (Nat × K)) (lfsu lfsv : List Nat) (x z : List K) (w : K) (y : List K)
    (hz : z.length = x.length) (hu : Indices x.length lfsu) (hv : Indices y.length lfsv)
    (ha : ∀ u : List K, u.length = x.length → Inside y.length (alpha u)) :
    ∃ (J : LocalMatrix K) (y' : List K), jacobianOne eps alpha lfsu lfsv x w (LocalMatrix.mk' y.length x.length 0) = some J ∧
      applyVolume eps alpha lfsu lfsv x z w y = some y' ∧
      applyVolumeLinear eps alpha lfsu lfsv x w y = applyVolume eps alpha lfsu lfsv x x w y ∧
      AddedVec y y' lfsv (fun i => (lfsu.map fun j => (J.get? i j).getD 0 * z.getD j 0).sum) := by
  have hw : (LocalMatrix.mk' y.length x.length (0 : K)).container.length = y.length * x.length := by simp [LocalMatrix.mk']
  obtain ⟨J, h1, h2⟩ := C49_difference_quotients eps alpha lfsu lfsv x w (LocalMatrix.mk' y.length x.length 0) hw rfl hu hv ha
  obtain ⟨y', h3, h4⟩ := C84_volume eps alpha lfsu lfsv x z w y hz hu hv ha
  refine ⟨J, y', h1, h3, rfl, vec_congr h4 ?_⟩
  intro i hi
  congr 1
  refine List.map_congr_left ?_
  intro j hj
  obtain ⟨-, -, -, -, -, h, -⟩ := C30_storage (LocalMatrix.mk' y.length x.length (0 : K)) hw i j (hv.2 i hi) (hu.2 j hj) 0
  rw [h2.2.2.2 i j (hv.2 i hi) (hu.2 j hj), (h y.length x.length 0).2 i j (hv.2 i hi) (hu.2 j hj), if_pos ⟨hi, hj⟩]
  simp

/-- C84. Linear `jacobian_apply_skeleton` adds on each side the weight of that side times the two blocks of the Jacobian times the
coefficients of the two sides. -/
theorem C84_skeleton_linear (eps : K) (alpha : List K → List K → List (Nat × K) × List (Nat × K)) (lfsuS lfsvS lfsuN lfsvN : List Nat)
    (xS xN : List K) (wS wN : K) (yS yN : List K)
    (huS : Indices xS.length lfsuS) (huN : Indices xN.length lfsuN) (hvS : Indices yS.length lfsvS) (hvN : Indices yN.length lfsvN)
    (ha : ∀ us un : List K, us.length = xS.length → un.length = xN.length → Inside yS.length (alpha us un).1 ∧ Inside yN.length (alpha us un).2) :
    ∃ a b, applySkeletonLinear eps alpha lfsuS lfsvS lfsuN lfsvN xS xN wS wN yS yN = some (a, b) ∧
      AddedVec yS a lfsvS (fun i => wS * ((lfsuS.map fun j => quotient eps (fun u => value (alpha u xN).1 i) xS j * xS.getD j 0).sum +
        (lfsuN.map fun j => quotient eps (fun u => value (alpha xS u).1 i) xN j * xN.getD j 0).sum)) ∧
      AddedVec yN b lfsvN (fun i => wN * ((lfsuS.map fun j => quotient eps (fun u => value (alpha u xN).2 i) xS j * xS.getD j 0).sum +
        (lfsuN.map fun j => quotient eps (fun u => value (alpha xS u).2 i) xN j * xN.getD j 0).sum)) :=
  applySkeletonWith_eq eps alpha lfsuS lfsvS lfsuN lfsvN xS xN xS xS xN xN wS wN yS yN ⟨rfl, rfl, rfl, rfl⟩ huS huN hvS hvN ha

/-- C84, part: what nonlinear `jacobian_apply_skeleton` adds inside is the product with `z`; what it adds outside is the product with `x`, so
the full property (`z` on both sides) holds only if `z` and `x` agree. -/
theorem C84_skeleton_partial (eps : K) (alpha : List K → List K → List (Nat × K) × List (Nat × K)) (lfsuS lfsvS lfsuN lfsvN : List Nat)
    (xS zS xN zN : List K) (wS wN : K) (yS yN : List K) (hzS : zS.length = xS.length) (hzN : zN.length = xN.length)
    (huS : Indices xS.length lfsuS) (huN : Indices xN.length lfsuN) (hvS : Indices yS.length lfsvS) (hvN : Indices yN.length lfsvN)
    (ha : ∀ us un : List K, us.length = xS.length → un.length = xN.length → Inside yS.length (alpha us un).1 ∧ Inside yN.length (alpha us un).2) :
    ∃ a b, applySkeleton eps alpha lfsuS lfsvS lfsuN lfsvN xS zS xN zN wS wN yS yN = some (a, b) ∧
      AddedVec yS a lfsvS (fun i => wS * ((lfsuS.map fun j => quotient eps (fun u => value (alpha u xN).1 i) xS j * zS.getD j 0).sum +
        (lfsuN.map fun j => quotient eps (fun u => value (alpha xS u).1 i) xN j * zN.getD j 0).sum)) ∧
      AddedVec yN b lfsvN (fun i => wN * ((lfsuS.map fun j => quotient eps (fun u => value (alpha u xN).2 i) xS j * xS.getD j 0).sum +
        (lfsuN.map fun j => quotient eps (fun u => value (alpha xS u).2 i) xN j * xN.getD j 0).sum)) :=
  applySkeletonWith_eq eps alpha lfsuS lfsvS lfsuN lfsvN xS xN zS xS zN xN wS wN yS yN ⟨hzS, rfl, hzN, rfl⟩ huS huN hvS hvN ha

/-- C84, part: both versions of `jacobian_apply_boundary` add the product of the matrix and `x` with weight one; missing for the full
property: the weight of `y` and, in the nonlinear version, `z`. -/
theorem C84_boundary_partial (eps : K) (alpha : List K → List (Nat × K)) (lfsu lfsv : List Nat) (x z : List K) (w : K) (y : List K)
    (hu : Indices x.length lfsu) (hv : Indices y.length lfsv) (ha : ∀ u : List K, u.length = x.length → Inside y.length (alpha u)) :
    ∃ y', applyBoundary eps alpha lfsu lfsv x z w y = some y' ∧ applyBoundaryLinear eps alpha lfsu lfsv x w y = some y' ∧
      AddedVec y y' lfsv (fun i => (lfsu.map fun j => quotient eps (fun u => value (alpha u) i) x j * x.getD j 0).sum) := by
  obtain ⟨y', h1, h2⟩ := applyOne_eq eps alpha lfsu lfsv x x 1 y rfl hu hv ha
  exact ⟨y', h1, h1, by simpa only [one_mul] using h2⟩

end

/-- The residual `u0 * u0 + 2 u1` in the last position, and `u0 - u1` in the first, of a container of size three; the test space has the
positions 2 and 0, the trial space is reversed. -/
private def exampleAlpha (u : List ℚ) : List (Nat × ℚ) := [(2, u.getD 0 0 * u.getD 0 0), (0, u.getD 0 0), (2, 2 * u.getD 1 0), (0, - u.getD 1 0)]

example : Indices 2 [1, 0] ∧ Indices 3 [2, 0] ∧ ∀ u : List ℚ, u.length = 2 → Inside 3 (exampleAlpha u) :=
  ⟨⟨by decide, by decide⟩, ⟨by decide, by decide⟩, fun u _ => by simp [Inside, exampleAlpha]⟩

/- The Jacobian at (1,4) with epsilon 1/2: the step for the first coefficient is 1, the quotient of u0² is 3. -/
example : (jacobianOne (1/2) exampleAlpha [1, 0] [2, 0] [1, 4] 10 (LocalMatrix.mk' 3 2 0)).map LocalMatrix.container =
    some [10, 0, 30, -10, 0, 20] := by decide +kernel

example : applyVolume (1/2) exampleAlpha [1, 0] [2, 0] [1, 4] [1, 1] 10 [100, 100, 100] = some [100, 100, 150] := by decide +kernel

/- An affine residual: the hypotheses of the theorem about affine residuals. -/
example : Affine 2 (fun u : List ℚ => value [(0, u.getD 0 0), (2, 3), (0, - u.getD 1 0)] 0) (fun q => if q = 0 then 1 else -1) :=
  ⟨0, fun u _ => by simp [value, List.range_succ]⟩

/-- The residuals `us * un` inside and `us + 3 un` outside, for one coefficient each. -/
private def exampleSkeleton (us un : List ℚ) : List (Nat × ℚ) × List (Nat × ℚ) :=
  ([(0, us.getD 0 0 * un.getD 0 0)], [(0, us.getD 0 0), (0, 3 * un.getD 0 0)])

example : (jacobianSkeleton (1/2) exampleSkeleton [0] [0] [0] [0] [5] [7] ⟨1, 10, 100, 1000⟩
    ⟨LocalMatrix.mk' 1 1 0, LocalMatrix.mk' 1 1 0, LocalMatrix.mk' 1 1 0, LocalMatrix.mk' 1 1 0⟩).map
      (fun m => (m.ss.container, m.sn.container, m.ns.container, m.nn.container)) = some ([7], [50], [100], [3000]) := by decide +kernel

example : Indices 1 [0] ∧ ∀ us un : List ℚ, us.length = 1 → un.length = 1 → Inside 1 (exampleSkeleton us un).1 ∧ Inside 1 (exampleSkeleton us un).2 :=
  ⟨⟨by decide, by decide⟩, fun us un _ _ => ⟨by simp [Inside, exampleSkeleton], by simp [Inside, exampleSkeleton]⟩⟩

/-- C84 fails for nonlinear `jacobian_apply_skeleton`: outside, `us + 3 un` has the gradient (1, 3), so that `z = (1, 1)` gives 4; the result is
`5 + 21`, the product with `x = (5, 7)`. -/
theorem C84_skeleton_false : applySkeleton (1/2 : ℚ) exampleSkeleton [0] [0] [0] [0] [5] [1] [7] [1] 1 1 [0] [0] = some ([12], [26]) ∧
    (∀ x : ℚ, quotient (1/2 : ℚ) (fun u => value (exampleSkeleton u [x]).2 0) [5] 0 = 1 ∧
      quotient (1/2 : ℚ) (fun u => value (exampleSkeleton [x] u).2 0) [7] 0 = 3) := by
  refine ⟨by decide +kernel, fun x => ⟨?_, ?_⟩⟩
  · exact quotient_affine (1/2) (by decide +kernel) 1 _ (fun _ => 1) ⟨3 * x, fun u _ => by
      simp [exampleSkeleton, value, List.range_succ, add_comm]⟩ [5] rfl 0 (by decide)
  · exact quotient_affine (1/2) (by decide +kernel) 1 _ (fun _ => 3) ⟨x, fun u _ => by
      simp [exampleSkeleton, value, List.range_succ]⟩ [7] rfl 0 (by decide)

/-- C84 fails for both versions of `jacobian_apply_boundary`: the residual `3 u` with weight 10 gives 30 z, but the linear version adds 3 x
and the nonlinear version adds 3 x for every `z`, while the matrix has the entry 30. -/
theorem C84_boundary_false : (jacobianOne (1/2 : ℚ) (fun u => [(0, 3 * u.getD 0 0)]) [0] [0] [5] 10 (LocalMatrix.mk' 1 1 0)).map
      LocalMatrix.container = some [30] ∧
    applyBoundaryLinear (1/2 : ℚ) (fun u => [(0, 3 * u.getD 0 0)]) [0] [0] [5] 10 [0] = some [15] ∧
    ∀ z, applyBoundary (1/2 : ℚ) (fun u => [(0, 3 * u.getD 0 0)]) [0] [0] [5] z 10 [0] = some [15] :=
  ⟨by decide +kernel, by decide +kernel, fun z => by
    show applyBoundaryLinear (1/2 : ℚ) (fun u => [(0, 3 * u.getD 0 0)]) [0] [0] [5] 10 [0] = some [15]
    decide +kernel⟩

section
variable {K : Type} [Field K]

/-- C50. For every `jacobian_volume` whose entries are inside of the spaces, of every shape, `alpha_volume` (also `post_skeleton`) adds the
weight times the Jacobian at `x` times `x` to the residual. -/
theorem C50_volume (jac : List K → List ((Nat × Nat) × K)) (x : List K) (w : K) (r : List K)
    (h : ∀ c ∈ jac x, c.1.1 < r.length ∧ c.1.2 < x.length) :
    ∃ r', alphaVolume jac x w r = some r' ∧ r'.length = r.length ∧ ∀ i, i < r.length → r'.getD i 0 =
      r.getD i 0 + w * ((List.range x.length).map fun j => value (jac x) (i, j) * x.getD j 0).sum := by
  obtain ⟨m, r', h1, h2, h3, h4⟩ := usmv_eq (jac x) x r w r.length rfl h
  refine ⟨r', ?_, h3, h4⟩
  unfold alphaVolume
  rw [h1]
  exact h2

/-- C50. `alpha_skeleton` adds on each side the weight of that side times both blocks of the row times the coefficients of both sides, for
blocks of every shape. -/
theorem C50_skeleton (jac : List K → List K → Four (List ((Nat × Nat) × K))) (xS xN : List K) (wS wN : K) (rS rN : List K)
    (hss : ∀ c ∈ (jac xS xN).ss, c.1.1 < rS.length ∧ c.1.2 < xS.length) (hsn : ∀ c ∈ (jac xS xN).sn, c.1.1 < rS.length ∧ c.1.2 < xN.length)
    (hns : ∀ c ∈ (jac xS xN).ns, c.1.1 < rN.length ∧ c.1.2 < xS.length) (hnn : ∀ c ∈ (jac xS xN).nn, c.1.1 < rN.length ∧ c.1.2 < xN.length) :
    ∃ rS' rN', alphaSkeleton jac xS xN wS wN rS rN = some (rS', rN') ∧ rS'.length = rS.length ∧ rN'.length = rN.length ∧
      (∀ i, i < rS.length → rS'.getD i 0 = rS.getD i 0 +
        wS * (((List.range xS.length).map fun j => value (jac xS xN).ss (i, j) * xS.getD j 0).sum +
          ((List.range xN.length).map fun j => value (jac xS xN).sn (i, j) * xN.getD j 0).sum)) ∧
      ∀ i, i < rN.length → rN'.getD i 0 = rN.getD i 0 +
        wN * (((List.range xS.length).map fun j => value (jac xS xN).ns (i, j) * xS.getD j 0).sum +
          ((List.range xN.length).map fun j => value (jac xS xN).nn (i, j) * xN.getD j 0).sum) := by
  obtain ⟨ss, r1, a1, a2, a3, a4⟩ := usmv_eq (jac xS xN).ss xS rS wS rS.length rfl hss
  obtain ⟨ns, r2, b1, b2, b3, b4⟩ := usmv_eq (jac xS xN).ns xS rN wN rN.length rfl hns
  obtain ⟨sn, r3, c1, c2, c3, c4⟩ := usmv_eq (jac xS xN).sn xN r1 wS rS.length a3.symm hsn
  obtain ⟨nn, r4, d1, d2, d3, d4⟩ := usmv_eq (jac xS xN).nn xN r2 wN rN.length b3.symm hnn
  refine ⟨r3, r4, ?_, c3.trans a3, d3.trans b3, ?_, ?_⟩
  · unfold alphaSkeleton
    simp only [a1, b1, c1, d1, a2, b2, c2, d2, Option.bind_eq_bind, Option.bind_some, Option.pure_def]
  · intro i hi
    rw [c4 i (by rw [a3]; exact hi), a4 i hi]
    ring
  · intro i hi
    rw [d4 i (by rw [b3]; exact hi), b4 i hi]
    ring

/-- C50, part: for as many test as trial coefficients, `alpha_boundary` adds the weight times the Jacobian times `x`. Missing for the full
property: rectangular shapes. -/
theorem C50_boundary_partial (jac : List K → List ((Nat × Nat) × K)) (x : List K) (w : K) (r : List K) (hsq : r.length = x.length)
    (h : ∀ c ∈ jac x, c.1.1 < r.length ∧ c.1.2 < x.length) :
    ∃ r', alphaBoundary jac x w r = some r' ∧ r'.length = r.length ∧ ∀ i, i < r.length → r'.getD i 0 =
      r.getD i 0 + w * ((List.range x.length).map fun j => value (jac x) (i, j) * x.getD j 0).sum := by
  obtain ⟨r', h1, h2⟩ := C50_volume jac x w r h
  refine ⟨r', ?_, h2⟩
  unfold alphaVolume at h1
  unfold alphaBoundary
  rw [hsq] at h1
  rw [hsq]
  exact h1

end

/-- C50 fails for `alpha_boundary` and rectangular shapes: the matrix has `x.size()` rows and `r.size()` columns. With two test and one trial
coefficient the product reads a coefficient that does not exist; with two trial coefficients and one test coefficient it writes a
residual that does not exist. `alpha_volume` handles both. -/
theorem C50_boundary_false :
    alphaBoundary (fun _ => [((0, 0), (1 : ℚ)), ((1, 0), 2)]) [3] 1 [0, 0] = none ∧
    alphaVolume (fun _ => [((0, 0), (1 : ℚ)), ((1, 0), 2)]) [3] 1 [0, 0] = some [3, 6] ∧
    alphaBoundary (fun _ => [((0, 0), (1 : ℚ)), ((0, 1), 2)]) [3, 4] 1 [0] = none ∧
    alphaVolume (fun _ => [((0, 0), (1 : ℚ)), ((0, 1), 2)]) [3, 4] 1 [0] = some [11] := by decide +kernel

/- A rectangular example with a repeated entry. -/
example : alphaVolume (fun _ => [((0, 0), (1 : ℚ)), ((0, 1), 2), ((0, 1), 5)]) [3, 4] 10 [7] = some [317] := by decide +kernel

example : alphaSkeleton (fun _ _ => ⟨[((0, 0), (1 : ℚ))], [((0, 1), 2)], [((1, 0), 3)], [((0, 0), 4), ((1, 1), 5)]⟩) [6] [7, 8] 1 10 [0] [0, 0] =
    some ([22], [280, 580]) := by decide +kernel

end Verif
