import Verif.Proofs.DGMesh
import Verif.Props.DGForm
/-
C235: interior penalty methods are stable if the penalty exceeds a bound that depends neither on the mesh width nor on the degree or the diffusion.
-/
set_option linter.unusedSectionVars false
namespace Verif
open LocalOp LocalOp.Spec LocalOp.DG Matrix

section
variable {K P Q : Type} [Field K] [LinearOrder K] [IsStrictOrderedRing K] {d N : Nat} {n : Fin N → Nat}

/-- **C235 (stability).** The difference of the residuals of two functions, tested with the difference of the functions, is at least the
energy of the difference times `1 - κNf/α₀` (the nonsymmetric method: times 1), plus the reaction, plus the penalties that the penalty
parameter exceeds `α₀` by. `Nf` is the largest number of faces of a cell, `κ` the constant of the trace inequality. -/
theorem C235_stable (op : Op K) (hw : op.weightsOn = true) (mesh : Mesh K P Q d n) (κ : K) (hκ : 0 ≤ κ) (h : Admissible op mesh κ)
    (hb : Incompressible op mesh) (Nf : Nat) (hf : ∀ c, faces mesh c ≤ Nf) (α₀ : K) (hα : 0 < α₀) (x x' : MeshVec K n)
    (r r' : Calls ((c : Fin N) × Fin (n c)) K) (hr : meshResidual op mesh x = some r) (hr' : meshResidual op mesh x' = some r') :
    (1 - crossTerms op.method * κ * Nf / α₀) * diffusionEnergy op mesh (fun i => x i - x' i) + reactionEnergy op mesh (fun i => x i - x' i) +
        (op.alpha - α₀) * jumpEnergy op mesh (fun i => x i - x' i) ≤
      tested r (fun i => x i - x' i) - tested r' (fun i => x i - x' i) :=
  DGMesh.stable op hw mesh κ hκ h hb Nf hf α₀ hα x x' r r' hr hr'

/-- **C235 (threshold).** So the operator is monotone if the penalty parameter is positive and at least `κNf` (a quarter of it for the incomplete
method, nothing for the nonsymmetric method). -/
theorem C235_monotone (op : Op K) (hw : op.weightsOn = true) (mesh : Mesh K P Q d n) (κ : K) (hκ : 0 ≤ κ) (h : Admissible op mesh κ)
    (hb : Incompressible op mesh) (Nf : Nat) (hf : ∀ c, faces mesh c ≤ Nf) (hα : 0 < op.alpha) (hα' : crossTerms op.method * κ * Nf ≤ op.alpha)
    (x x' : MeshVec K n)
    (r r' : Calls ((c : Fin N) × Fin (n c)) K) (hr : meshResidual op mesh x = some r) (hr' : meshResidual op mesh x' = some r') :
    tested r' (fun i => x i - x' i) ≤ tested r (fun i => x i - x' i) := by
  have h1 := C235_stable op hw mesh κ hκ h hb Nf hf op.alpha hα x x' r r' hr hr'
  obtain ⟨h2, h3, -⟩ := DGMesh.energies_nonneg op mesh κ h fun i => x i - x' i
  have h4 := mul_nonneg (sub_nonneg.mpr ((div_le_one hα).mpr hα')) h2
  rw [sub_self, zero_mul, add_zero] at h1
  linarith

/-- **C235 (uniqueness).** If the penalty parameter is larger than that, two functions with the same residual are equal, provided only zero has
no energy and no jumps. -/
theorem C235_unique (op : Op K) (hw : op.weightsOn = true) (mesh : Mesh K P Q d n) (κ : K) (hκ : 0 ≤ κ) (h : Admissible op mesh κ)
    (hb : Incompressible op mesh) (Nf : Nat) (hf : ∀ c, faces mesh c ≤ Nf) (hα : 0 < op.alpha) (hα' : crossTerms op.method * κ * Nf < op.alpha)
    (hd : ∀ w : MeshVec K n, diffusionEnergy op mesh w = 0 → reactionEnergy op mesh w = 0 → jumpEnergy op mesh w = 0 → w = 0)
    (x x' : MeshVec K n) (r r' : Calls ((c : Fin N) × Fin (n c)) K) (hr : meshResidual op mesh x = some r)
    (hr' : meshResidual op mesh x' = some r') (heq : total r = total r') : x = x' := by
  have hσ : (0 : K) ≤ crossTerms op.method * κ * Nf :=
    mul_nonneg (mul_nonneg (by rw [DGMesh.crossTerms_eq]; exact sq_nonneg _) hκ) (Nat.cast_nonneg _)
  obtain ⟨α₀, h0, h1⟩ : ∃ α₀, crossTerms op.method * κ * Nf < α₀ ∧ α₀ < op.alpha := exists_between hα'
  have hα0 : 0 < α₀ := hσ.trans_lt h0
  have hs := C235_stable op hw mesh κ hκ h hb Nf hf α₀ hα0 x x' r r' hr hr'
  have e : tested r (fun i => x i - x' i) - tested r' (fun i => x i - x' i) = 0 := by
    unfold tested
    rw [heq, sub_self]
  rw [e] at hs
  obtain ⟨h2, h3, h4⟩ := DGMesh.energies_nonneg op mesh κ h fun i => x i - x' i
  have p1 : 0 < 1 - crossTerms op.method * κ * Nf / α₀ := sub_pos.mpr ((div_lt_one hα0).mpr h0)
  have p2 : 0 < op.alpha - α₀ := sub_pos.mpr h1
  have m1 := mul_nonneg p1.le h2
  have m2 := mul_nonneg p2.le h4
  have z := hd (fun i => x i - x' i)
    ((mul_eq_zero.mp (le_antisymm (by linarith) m1)).resolve_left p1.ne')
    (le_antisymm (by linarith) h3)
    ((mul_eq_zero.mp (le_antisymm (by linarith) m2)).resolve_left p2.ne')
  funext i
  exact sub_eq_zero.mp (congrFun z i)

end

/-! A concrete case: the unit interval with two cells of linear functions and diffusion coefficients 3 and 300; a flow from the Dirichlet boundary on
the left to the outflow boundary on the right. -/

/-- The left end. -/
def dgLeft : FaceGeo ℚ ℚ Unit 1 :=
  { cdFace with inInside := fun _ => 0, centerUnitOuterNormal := fun _ => -1, unitOuterNormal := fun _ _ => -1 }

def dgMesh : Mesh ℚ ℚ Unit 1 (N := 2) fun _ => 2 where
  geo _ := cdGeo
  par c := { cdPar with A := fun _ _ _ => if c = 0 then 3 else 300 }
  lfs _ := cdBasis
  inner := [⟨cdFace, 0, 1⟩]
  boundary := [⟨dgLeft, 0, cdFacePar .dirichlet⟩, ⟨cdFace, 1, cdFacePar .outflow⟩]

theorem dgMesh_trace (α : ℚ) (geo : FaceGeo ℚ ℚ Unit 1) (hg : geo.quadratureRule = cdFace.quadratureRule)
    (hi : geo.integrationElement = cdFace.integrationElement) (hv : geo.volume = 1) (o : Int) (c : Fin 2) (point : Unit → ℚ) :
    TraceInequality ⟨.SIPG, true, α, 0⟩ dgMesh 1 geo o c point := by
  intro y
  refine le_of_eq ?_
  simp only [integrateFace, hg, hi, hv, cellEnergy, integrate, energyDensity, gradient, tensor, dgMesh, cdFace, cdGeo, cdBasis, cdPar,
    List.map_cons, List.map_nil, List.sum_cons, List.sum_nil]
  norm_num [Matrix.mulVec, dotProduct, Fin.sum_univ_two]
  ring

theorem dgMesh_admissible (α : ℚ) : Admissible ⟨.SIPG, true, α, 0⟩ dgMesh 1 where
  dim := Nat.one_pos
  flag _ _ := rfl
  volume _ := by norm_num [dgMesh, cdGeo]
  degree _ := Nat.one_pos
  weights _ := by
    intro q hq
    have hq' : q ∈ [((1 / 4 : ℚ), (1 / 2 : ℚ)), (3 / 4, 1 / 2)] := hq
    change 0 ≤ q.2 * (1 / 2)
    fin_cases hq' <;> norm_num
  symmetric _ _ := rfl
  diffusion c _ v := by
    have : ∀ a : ℚ, (((fun _ _ => a : Matrix (Fin 1) (Fin 1) ℚ)) *ᵥ v) ⬝ᵥ v = a * (v 0 * v 0) := by
      intro a
      simp [Matrix.mulVec, dotProduct]
      ring
    change 0 ≤ ((fun _ _ => if c = 0 then (3 : ℚ) else 300 : Matrix (Fin 1) (Fin 1) ℚ) *ᵥ v) ⬝ᵥ v
    rw [this]
    refine mul_nonneg ?_ (mul_self_nonneg _)
    split <;> norm_num
  reaction _ _ := by norm_num [dgMesh, cdPar]
  inner F hF := by
    rw [List.mem_singleton.mp hF]
    refine ⟨by norm_num [cdFace], ?_, dgMesh_trace α _ rfl rfl rfl _ _ _, dgMesh_trace α _ rfl rfl rfl _ _ _⟩
    intro q hq
    rw [List.mem_singleton.mp hq]
    norm_num [cdFace]
  boundary F hF := by
    rcases List.mem_pair.mp hF with rfl | rfl
    · refine ⟨by norm_num [dgLeft, cdFace], ?_, dgMesh_trace α dgLeft rfl rfl rfl _ _ _⟩
      intro q hq
      rw [List.mem_singleton.mp hq]
      norm_num [dgLeft, cdFace]
    · refine ⟨by norm_num [cdFace], ?_, dgMesh_trace α _ rfl rfl rfl _ _ _⟩
      intro q hq
      rw [List.mem_singleton.mp hq]
      norm_num [cdFace]

theorem dgMesh_incompressible (α : ℚ) : Incompressible ⟨.SIPG, true, α, 0⟩ dgMesh where
  divergence x := by
    simp only [integrateFace, integrate, gradient, value, faceFlow, dgMesh, dgLeft, cdFace, cdGeo, cdBasis, cdPar,
      List.map_cons, List.map_nil, List.sum_cons, List.sum_nil, onCell]
    norm_num [Matrix.mulVec, dotProduct, Fin.sum_univ_two]
    ring
  boundary F hF q hq := by
    rcases List.mem_pair.mp hF with rfl | rfl <;> rw [List.mem_singleton.mp hq] <;>
      norm_num [cdFacePar, faceFlow, dgMesh, dgLeft, cdFace, cdPar, dotProduct] <;> decide

example : ∀ c, faces dgMesh c ≤ 2 := by decide

/-- With the penalty parameter 3 the problem is solvable in at most one way. -/
example (x x' : MeshVec ℚ fun _ : Fin 2 => 2) (r r' : Calls ((_ : Fin 2) × Fin 2) ℚ)
    (hr : meshResidual ⟨.SIPG, true, 3, 0⟩ dgMesh x = some r) (hr' : meshResidual ⟨.SIPG, true, 3, 0⟩ dgMesh x' = some r')
    (heq : total r = total r') : x = x' :=
  C235_unique ⟨.SIPG, true, 3, 0⟩ rfl dgMesh 1 zero_le_one (dgMesh_admissible 3) (dgMesh_incompressible 3) 2 (by decide) (by norm_num)
    (by norm_num [crossTerms]) (fun w _ hR _ => by
      simp only [reactionEnergy, integrate, value, dgMesh, cdGeo, cdBasis, cdPar, List.map_cons, List.map_nil, List.sum_cons, List.sum_nil, onCell]
        at hR
      norm_num [Fin.sum_univ_two] at hR
      have s1 := sq_nonneg (w ⟨0, 0⟩ * (3 / 4) + w ⟨0, 1⟩ * (1 / 4))
      have s2 := sq_nonneg (w ⟨0, 0⟩ * (1 / 4) + w ⟨0, 1⟩ * (3 / 4))
      have s3 := sq_nonneg (w ⟨1, 0⟩ * (3 / 4) + w ⟨1, 1⟩ * (1 / 4))
      have s4 := sq_nonneg (w ⟨1, 0⟩ * (1 / 4) + w ⟨1, 1⟩ * (3 / 4))
      have z1 := pow_eq_zero_iff two_ne_zero |>.mp (le_antisymm (by linarith : (w ⟨0, 0⟩ * (3 / 4) + w ⟨0, 1⟩ * (1 / 4)) ^ 2 ≤ 0) s1)
      have z2 := pow_eq_zero_iff two_ne_zero |>.mp (le_antisymm (by linarith : (w ⟨0, 0⟩ * (1 / 4) + w ⟨0, 1⟩ * (3 / 4)) ^ 2 ≤ 0) s2)
      have z3 := pow_eq_zero_iff two_ne_zero |>.mp (le_antisymm (by linarith : (w ⟨1, 0⟩ * (3 / 4) + w ⟨1, 1⟩ * (1 / 4)) ^ 2 ≤ 0) s3)
      have z4 := pow_eq_zero_iff two_ne_zero |>.mp (le_antisymm (by linarith : (w ⟨1, 0⟩ * (1 / 4) + w ⟨1, 1⟩ * (3 / 4)) ^ 2 ≤ 0) s4)
      funext ⟨c, i⟩
      fin_cases c <;> fin_cases i <;> simp <;> linarith) x x' r r' hr hr' heq

/-- The operator does not throw. -/
example : (meshResidual ⟨.SIPG, true, 3, 0⟩ dgMesh fun i => if i.2 = 0 then 1 else 2).isSome := by decide +kernel

/-- One cell with Dirichlet boundary on both ends, diffusion only. -/
def dgCell : Mesh ℚ ℚ Unit 1 (N := 1) fun _ => 2 where
  geo _ := cdGeo
  par _ := { cdPar with b := fun _ _ => 0, c := fun _ => 0 }
  lfs _ := cdBasis
  inner := []
  boundary := [⟨dgLeft, 0, cdFacePar .dirichlet⟩, ⟨cdFace, 0, cdFacePar .dirichlet⟩]

/-- **C235 (the bound is needed).** Below the bound, which is 2 for intervals, the symmetric method is not stable, the nonsymmetric one is. -/
theorem C235_small_penalty_false :
    let x : MeshVec ℚ fun _ : Fin 1 => 2 := fun i => if i.2 = 0 then -1 else 1
    (∃ r r', meshResidual ⟨.SIPG, true, 19 / 10, 0⟩ dgCell x = some r ∧ meshResidual ⟨.SIPG, true, 19 / 10, 0⟩ dgCell (fun _ => 0) = some r' ∧
      tested r x < tested r' x) ∧
    (∃ r r', meshResidual ⟨.NIPG, true, 19 / 10, 0⟩ dgCell x = some r ∧ meshResidual ⟨.NIPG, true, 19 / 10, 0⟩ dgCell (fun _ => 0) = some r' ∧
      tested r' x < tested r x) := by
  refine ⟨⟨_, _, rfl, rfl, ?_⟩, _, _, rfl, rfl, ?_⟩ <;> decide +kernel

end Verif
