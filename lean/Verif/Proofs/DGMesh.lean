import Verif.Spec.DGMesh
import Verif.Proofs.DGForm
import Mathlib.Algebra.QuadraticDiscriminant
import Mathlib.Tactic.FieldSimp
import Mathlib.Tactic.LinearCombination
/- Lemmas for C235. -/
set_option linter.unusedSectionVars false
namespace Verif.DGMesh
open LocalOp LocalOp.Spec LocalOp.DG Matrix

section
variable {K P Q : Type} [Field K] [LinearOrder K] {d N : Nat} {n : Fin N → Nat}

theorem tested_cons {ι : Type} [DecidableEq ι] [Fintype ι] (e : ι × K) (l : Calls ι K) (y : ι → K) :
    tested (e :: l) y = y e.1 * e.2 + tested l y := by
  have h : ∀ i, total (e :: l) i = (if i = e.1 then e.2 else 0) + total l i := by
    intro i
    unfold total
    by_cases hi : e.1 = i
    · subst hi
      simp
    · rw [List.filter_cons_of_neg (by simpa using hi), if_neg fun h => hi h.symm, zero_add]
  unfold tested
  simp only [h, mul_add, Finset.sum_add_distrib, mul_ite, mul_zero, Finset.sum_ite_eq', Finset.mem_univ, if_true]

theorem tested_relabel {α ι : Type} [DecidableEq ι] [Fintype ι] [DecidableEq α] [Fintype α] (l : Calls α K) (g : α → ι) (y : ι → K) :
    tested (l.map fun c => (g c.1, c.2)) y = tested l (fun a => y (g a)) := by
  induction l with
  | nil => simp [tested, total]
  | cons e l ih => rw [List.map_cons, tested_cons, tested_cons, ih]

theorem mapM_sum {α ι : Type} [DecidableEq ι] [Fintype ι] (f : α → Option (Calls ι K)) (v : α → K) (y : ι → K) (l : List α)
    (b : List (Calls ι K)) (h : l.mapM f = some b) (hv : ∀ a ∈ l, ∀ r, f a = some r → tested r y = v a) : tested b.flatten y = (l.map v).sum := by
  induction l generalizing b with
  | nil =>
    simp only [List.mapM_nil] at h
    cases h
    simp [tested, total]
  | cons a l ih =>
    rw [List.mapM_cons] at h
    cases hf : f a with
    | none => rw [hf] at h; cases h
    | some r =>
      rw [hf] at h
      cases hl : l.mapM f with
      | none => rw [hl] at h; cases h
      | some b' =>
        rw [hl] at h
        cases h
        rw [List.flatten_cons, tested_append, List.map_cons, List.sum_cons, hv a List.mem_cons_self r hf,
          ih b' hl fun a' ha' => hv a' (List.mem_cons_of_mem _ ha')]

/-- The residual of a mesh, tested. -/
theorem mesh_tested (op : Op K) (mesh : Mesh K P Q d n) (x y : MeshVec K n) (r : Calls ((c : Fin N) × Fin (n c)) K)
    (h : meshResidual op mesh x = some r) :
    tested r y =
      ∑ c, (volumeForm (mesh.geo c) (mesh.par c) (mesh.lfs c) (op.intorder (mesh.lfs c).order) (onCell x c) (onCell y c) +
        tested (lambdaVolume op (mesh.geo c) (mesh.par c) (mesh.lfs c)) (onCell y c)) +
      (mesh.inner.map fun F => skeletonForm op F.geo (mesh.geo F.inside) (mesh.geo F.outside) (mesh.par F.inside) (mesh.par F.outside)
        (mesh.lfs F.inside) (mesh.lfs F.outside) (op.intorder (faceDegree mesh F)) (readFace F.inside F.outside x)
        (readFace F.inside F.outside y)).sum +
      (mesh.boundary.map fun F => boundaryForm op F.geo (mesh.geo F.inside) (mesh.par F.inside) F.par (mesh.lfs F.inside)
        (op.intorder (mesh.lfs F.inside).order) (onCell x F.inside) (onCell y F.inside)).sum := by
  unfold meshResidual at h
  dsimp only at h
  cases hb : mesh.boundary.mapM fun F =>
    (alphaBoundary op F.geo (mesh.geo F.inside) (mesh.par F.inside) F.par (mesh.lfs F.inside) (mesh.lfs F.inside)
      fun i => x ⟨F.inside, i⟩).map (place F.inside) with
  | none => rw [hb] at h; cases h
  | some b =>
    rw [hb] at h
    cases h
    rw [tested_append, tested_append, tested_flatMap, tested_flatMap]
    congr 1
    · congr 1
      · rw [Fin.sum_univ_def]
        congr 1
        refine List.map_congr_left fun c _ => ?_
        rw [tested_append]
        congr 1
        · refine (tested_relabel _ (fun i => (⟨c, i⟩ : (c : Fin N) × Fin (n c))) y).trans ?_
          exact volume_form op (mesh.geo c) (mesh.par c) (mesh.lfs c) _ _
        · exact tested_relabel _ (fun i => (⟨c, i⟩ : (c : Fin N) × Fin (n c))) y
      · congr 1
        refine List.map_congr_left fun F _ => ?_
        refine (tested_relabel _ (Sum.elim (fun i => ⟨F.inside, i⟩) fun i => ⟨F.outside, i⟩) y).trans ?_
        rw [skeleton_form]
        congr 1
        funext i
        cases i <;> rfl
    · refine mapM_sum _ _ y _ _ hb fun F _ r' hr' => ?_
      obtain ⟨r0, h0, rfl⟩ := Option.map_eq_some_iff.mp hr'
      refine (tested_relabel _ (fun i => (⟨F.inside, i⟩ : (c : Fin N) × Fin (n c))) y).trans ?_
      exact boundary_form op F.geo (mesh.geo F.inside) (mesh.par F.inside) F.par (mesh.lfs F.inside) _ _ r0 h0

theorem value_sub' {n : Nat} (lfs : Basis K P d n) (x y : Fin n → K) (p : P) : value lfs (fun i => x i - y i) p = value lfs x p - value lfs y p := by
  simp only [value, sub_mul, Finset.sum_sub_distrib]

theorem gradient_sub' {n : Nat} (geo : CellGeo K P d) (lfs : Basis K P d n) (x y : Fin n → K) (p : P) :
    gradient geo lfs (fun i => x i - y i) p = gradient geo lfs x p - gradient geo lfs y p := by
  simp only [gradient, sub_smul, Finset.sum_sub_distrib]

theorem integrate_sub' (geo : CellGeo K P d) (order : Int) (g g' : P → K) :
    integrate geo order g - integrate geo order g' = integrate geo order fun q => g q - g' q := by
  unfold integrate
  induction geo.quadratureRule order with
  | nil => simp
  | cons a l ih => simp only [List.map_cons, List.sum_cons, ← ih]; ring

theorem integrate_lin (geo : CellGeo K P d) (order : Int) (f g h : P → K) :
    integrate geo order (fun p => f p - g p + h p) = integrate geo order f - integrate geo order g + integrate geo order h := by
  unfold integrate
  induction geo.quadratureRule order with
  | nil => simp
  | cons a l ih => simp only [List.map_cons, List.sum_cons, ih]; ring

theorem integrateFace_lin (geo : FaceGeo K P Q d) (order : Int) (f g h h' : Q → K) (a b : K) :
    integrateFace geo order (fun p => f p + a * g p - b * (h p + h' p)) =
      integrateFace geo order f + a * integrateFace geo order g - b * (integrateFace geo order h + integrateFace geo order h') := by
  unfold integrateFace
  induction geo.quadratureRule order with
  | nil => simp
  | cons a l ih => simp only [List.map_cons, List.sum_cons, ih]; ring

/-- The form is linear in the solution. -/
theorem volume_difference (geo : CellGeo K P d) {n : Nat} (par : CellParam K P d) (lfs : Basis K P d n) (o : Int) (x x' y : Fin n → K) :
    volumeForm geo par lfs o x y - volumeForm geo par lfs o x' y = volumeForm geo par lfs o (fun i => x i - x' i) y := by
  unfold volumeForm
  rw [integrate_sub']
  refine integrate_congr _ _ _ _ fun q _ => ?_
  simp only [value_sub', gradient_sub', mulVec_sub, sub_dotProduct]
  ring

theorem skeleton_difference {ns nn : Nat} (op : Op K) (geo : FaceGeo K P Q d) (geoIn geoOut : CellGeo K P d) (parIn parOut : CellParam K P d)
    (lfsS : Basis K P d ns) (lfsN : Basis K P d nn) (o : Int) (x x' y : Fin ns ⊕ Fin nn → K) :
    skeletonForm op geo geoIn geoOut parIn parOut lfsS lfsN o x y - skeletonForm op geo geoIn geoOut parIn parOut lfsS lfsN o x' y =
      skeletonForm op geo geoIn geoOut parIn parOut lfsS lfsN o (fun i => x i - x' i) y := by
  unfold skeletonForm
  rw [integrateFace_sub]
  refine integrateFace_congr _ _ _ _ fun q _ => ?_
  simp only [value_sub', gradient_sub', dotProduct_sub]
  split <;> ring

end

section
variable {K P Q : Type} [Field K] [LinearOrder K] [IsStrictOrderedRing K] {d N : Nat} {n : Fin N → Nat}

theorem integrateFace_mono (geo : FaceGeo K P Q d) (order : Int) (hw : NonnegFaceWeights geo order) (f g : Q → K) (h : ∀ q, f q ≤ g q) :
    integrateFace geo order f ≤ integrateFace geo order g := by
  rw [← sub_nonneg, integrateFace_sub]
  exact integrateFace_nonneg geo order hw _ fun q _ => sub_nonneg.mpr (h q.1)

theorem integrateFace_mono' (geo : FaceGeo K P Q d) (order : Int) (hw : NonnegFaceWeights geo order) (f g : Q → K)
    (h : ∀ q ∈ geo.quadratureRule order, f q.1 ≤ g q.1) : integrateFace geo order f ≤ integrateFace geo order g := by
  rw [← sub_nonneg, integrateFace_sub]
  exact integrateFace_nonneg geo order hw _ fun q hq => sub_nonneg.mpr (h q hq)

theorem cauchy_schwarz (A : Matrix (Fin d) (Fin d) K) (hs : A.transpose = A) (hp : ∀ v, 0 ≤ (A *ᵥ v) ⬝ᵥ v) (v w : Fin d → K) :
    ((A *ᵥ v) ⬝ᵥ w) ^ 2 ≤ ((A *ᵥ v) ⬝ᵥ v) * ((A *ᵥ w) ⬝ᵥ w) := by
  have hsym : (A *ᵥ w) ⬝ᵥ v = (A *ᵥ v) ⬝ᵥ w := by
    rw [dotProduct_comm, Matrix.dotProduct_mulVec, ← Matrix.mulVec_transpose, hs]
  have h := discrim_le_zero (a := (A *ᵥ v) ⬝ᵥ v) (b := 2 * ((A *ᵥ v) ⬝ᵥ w)) (c := (A *ᵥ w) ⬝ᵥ w) fun t => by
    have := hp (t • v + w)
    simp only [mulVec_add, mulVec_smul, add_dotProduct, dotProduct_add, smul_dotProduct, dotProduct_smul, smul_eq_mul, hsym] at this
    linarith
  unfold discrim at h
  linarith

theorem side (σ τ X a δ j : K) (hτ : 0 < τ) (hδ : 0 ≤ δ) (ha : 0 ≤ a) (hX : X ^ 2 ≤ δ * a) :
    2 * σ * X * j ≤ σ ^ 2 / τ * a + τ * δ * j ^ 2 := by
  rcases hδ.eq_or_lt with rfl | hδ
  · have : X = 0 := by
      have h1 : X ^ 2 ≤ 0 := by simpa using hX
      exact pow_eq_zero_iff (two_ne_zero) |>.mp (le_antisymm h1 (sq_nonneg X))
    subst this
    have := mul_nonneg (div_nonneg (sq_nonneg σ) hτ.le) ha
    linarith
  · have h1 := sq_nonneg (σ * X - τ * δ * j)
    have h2 := mul_le_mul_of_nonneg_left hX (sq_nonneg σ)
    have h3 : δ * τ * (2 * σ * X * j) ≤ δ * τ * (σ ^ 2 / τ * a + τ * δ * j ^ 2) := by
      have : δ * τ * (σ ^ 2 / τ * a + τ * δ * j ^ 2) = σ ^ 2 * (δ * a) + (τ * δ * j) ^ 2 := by
        field_simp
      rw [this]
      linarith
    exact le_of_mul_le_mul_left h3 (mul_pos hδ hτ)

theorem crossTerms_eq (m : Method) : (crossTerms m : K) = ((1 - sign m) / 2) ^ 2 := by
  cases m <;> simp only [crossTerms, sign] <;> norm_num

/-- One side of an inner face, with its weight. -/
theorem side_weighted (σ τ X a δ δ' ε j : K) (hτ : 0 < τ) (hδ : 0 ≤ δ) (hδ' : 0 ≤ δ') (hε : 0 < ε) (ha : 0 ≤ a) (hX : X ^ 2 ≤ δ * a) :
    2 * σ * (δ' / (δ + δ' + ε)) * X * j ≤ σ ^ 2 / τ * a + τ * (δ * δ' / (δ + δ' + ε)) * j ^ 2 := by
  have hD : 0 < δ + δ' + ε := by linarith
  have hw : 0 ≤ δ' / (δ + δ' + ε) := div_nonneg hδ' hD.le
  have hw1 : δ' / (δ + δ' + ε) ≤ 1 := (div_le_one hD).mpr (by linarith)
  have h1 := mul_le_mul_of_nonneg_left (side σ τ X a δ j hτ hδ ha hX) hw
  have h2 := mul_le_mul_of_nonneg_right hw1 (mul_nonneg (div_nonneg (sq_nonneg σ) hτ.le) ha)
  have e : δ * δ' / (δ + δ' + ε) = δ' / (δ + δ' + ε) * δ := by ring
  rw [e]
  nlinarith

/-- The terms at a point of an inner face. -/
theorem face_point (θ α α0 h pp dS dN XS XN aS aN bn uS uN : K) (ha0 : 0 < α0) (hh : 0 < h) (hpp : 0 < pp) (hS : 0 ≤ dS) (hN : 0 ≤ dN)
    (haS : 0 ≤ aS) (haN : 0 ≤ aN) (hXS : XS ^ 2 ≤ dS * aS) (hXN : XN ^ 2 ≤ dN * aN) :
    bn / 2 * (uS ^ 2 - uN ^ 2) + (α - α0) * (1 / h * (2 * dS * dN / (dS + dN + 1 / 10 ^ 20)) * pp * (uS - uN) ^ 2) -
        ((1 - θ) / 2) ^ 2 / (α0 / h * pp) * (aS + aN) ≤
      (if bn ≥ 0 then uS else uN) * bn * (uS - uN) -
        (dN / (dS + dN + 1 / 10 ^ 20) * XS + dS / (dS + dN + 1 / 10 ^ 20) * XN) * (uS - uN) +
        θ * (uS - uN) * (dN / (dS + dN + 1 / 10 ^ 20) * XS + dS / (dS + dN + 1 / 10 ^ 20) * XN) +
        α / h * (2 * dS * dN / (dS + dN + 1 / 10 ^ 20)) * pp * (uS - uN) * (uS - uN) := by
  have hτ : 0 < α0 / h * pp := mul_pos (div_pos ha0 hh) hpp
  have hε : (0 : K) < 1 / 10 ^ 20 := by positivity
  have h1 := side_weighted ((1 - θ) / 2) (α0 / h * pp) XS aS dS dN (1 / 10 ^ 20) (uS - uN) hτ hS hN hε haS hXS
  have h2 := side_weighted ((1 - θ) / 2) (α0 / h * pp) XN aN dN dS (1 / 10 ^ 20) (uS - uN) hτ hN hS hε haN hXN
  rw [add_comm dN dS, mul_comm dN dS] at h2
  have h3 : bn / 2 * (uS ^ 2 - uN ^ 2) ≤ (if bn ≥ 0 then uS else uN) * bn * (uS - uN) := by
    split
    · rename_i hb
      have := mul_nonneg hb (sq_nonneg (uS - uN))
      linarith
    · rename_i hb
      have := mul_nonneg (neg_nonneg.mpr (not_le.mp hb).le) (sq_nonneg (uS - uN))
      linarith
  generalize dN / (dS + dN + 1 / 10 ^ 20) = w1 at *
  generalize dS / (dS + dN + 1 / 10 ^ 20) = w2 at *
  have e1 : 2 * dS * dN / (dS + dN + 1 / 10 ^ 20) = 2 * (dS * dN / (dS + dN + 1 / 10 ^ 20)) := by ring
  rw [e1]
  generalize dS * dN / (dS + dN + 1 / 10 ^ 20) = w3 at *
  have e2 : α / h * (2 * w3) * pp * (uS - uN) * (uS - uN) =
      (α - α0) * (1 / h * (2 * w3) * pp * (uS - uN) ^ 2) + 2 * (α0 / h * pp * w3 * (uS - uN) ^ 2) := by ring
  rw [e2]
  linarith

/-- The trace inequality bounds the remainder of a face by the energy of the cell. -/
theorem trace_bound (κ α0 h F m T pp ppS I E : K) (hκ : 0 ≤ κ) (ha0 : 0 < α0) (hF : 0 < F) (hm : 0 < m) (hmT : m ≤ T) (hh : h = m / F)
    (hppS : 0 ≤ ppS) (hpp : 0 < pp) (hle : ppS ≤ pp) (hE : 0 ≤ E) (hI : I ≤ κ * ppS * (F / T) * E) : 1 / (α0 / h * pp) * I ≤ κ / α0 * E := by
  subst hh
  have hT : 0 < T := hm.trans_le hmT
  have h1 : 0 ≤ 1 / (α0 / (m / F) * pp) := by positivity
  refine (mul_le_mul_of_nonneg_left hI h1).trans ?_
  have e : 1 / (α0 / (m / F) * pp) * (κ * ppS * (F / T) * E) = κ / α0 * E * (ppS / pp * (m / T)) := by
    field_simp
  rw [e]
  have h2 : ppS / pp * (m / T) ≤ 1 := mul_le_one₀ ((div_le_one hpp).mpr hle) (by positivity) ((div_le_one hT).mpr hmT)
  exact mul_le_of_le_one_right (by positivity) h2

theorem count_sum {α : Type} (l : List α) (g : α → Fin N) (E : Fin N → K) :
    (l.map fun a => E (g a)).sum = ∑ c, (l.countP fun a => g a = c : K) * E c := by
  induction l with
  | nil => simp
  | cons a l ih =>
    rw [List.map_cons, List.sum_cons, ih]
    have : ∀ c, (((a :: l).countP fun a => g a = c : ℕ) : K) * E c = (if c = g a then E c else 0) + ((l.countP fun a => g a = c : ℕ) : K) * E c := by
      intro c
      rw [List.countP_cons]
      by_cases h : g a = c
      · subst h
        simp
        ring
      · simp [h, Ne.symm h]
    simp only [this, Finset.sum_add_distrib, Finset.sum_ite_eq', Finset.mem_univ, if_true]

/-- The terms at a point of a Dirichlet boundary. -/
theorem dirichlet_point (θ α α0 F T pp δ X X1 X2 a bn v u1 u2 g σ2 τ : K) (hτ : τ = α0 / (T / F) * pp) (ev : v = u1 - u2) (eX : X = X1 - X2)
    (key : 2 * ((1 - θ) / 2) * X * v ≤ σ2 / τ * a + τ * δ * v ^ 2) :
    bn / 2 * v ^ 2 + (α - α0) * (F / T * δ * pp * v ^ 2) - σ2 / τ * (a + 0) ≤
      (if bn ≥ 0 then u1 else g) * bn * v - X1 * v + θ * (u1 - g) * X + α / (T / F) * δ * pp * (u1 - g) * v -
      ((if bn ≥ 0 then u2 else g) * bn * v - X2 * v + θ * (u2 - g) * X + α / (T / F) * δ * pp * (u2 - g) * v) := by
  have h1 : bn / 2 * v ^ 2 ≤ ((if bn ≥ 0 then u1 else g) - (if bn ≥ 0 then u2 else g)) * bn * v := by
    by_cases hb : bn ≥ 0
    · simp only [if_pos hb]
      rw [← ev]
      have := mul_nonneg hb (sq_nonneg v)
      linarith
    · simp only [if_neg hb]
      have := mul_nonneg (neg_nonneg.mpr (not_le.mp hb).le) (sq_nonneg v)
      linarith
  have e1 : ∀ b : K, b / (T / F) = b * (F / T) := fun b => by rw [div_div_eq_mul_div, mul_div_assoc]
  rw [e1] at hτ ⊢
  rw [add_zero]
  generalize σ2 / τ * a = s at *
  subst hτ
  have e2 : α * (F / T) * δ * pp * (u1 - g) * v - α * (F / T) * δ * pp * (u2 - g) * v =
      (α - α0) * (F / T * δ * pp * v ^ 2) + α0 * (F / T) * pp * δ * v ^ 2 := by rw [ev]; ring
  have e4 : θ * (u1 - g) * X - θ * (u2 - g) * X - (X1 * v - X2 * v) = -(2 * ((1 - θ) / 2) * X * v) := by rw [ev, eX]; ring
  linarith

theorem pp_pos {d p : Nat} (hd : 0 < d) (hp : 0 < p) : 0 < p * (p + d - 1) := Nat.mul_pos hp (by omega)

theorem pp_mono {d p p' : Nat} (h : p ≤ p') : p * (p + d - 1) ≤ p' * (p' + d - 1) := Nat.mul_le_mul h (by omega)

theorem density_nonneg (op : Op K) (mesh : Mesh K P Q d n) (κ : K) (h : Admissible op mesh κ) (c : Fin N) (y : Fin (n c) → K) (p : P) :
    0 ≤ energyDensity mesh c y p := by
  unfold energyDensity tensor
  split <;> exact h.diffusion _ _ _

theorem cellEnergy_nonneg (op : Op K) (mesh : Mesh K P Q d n) (κ : K) (h : Admissible op mesh κ) (c : Fin N) (y : Fin (n c) → K) :
    0 ≤ cellEnergy op mesh c y :=
  integrate_nonneg _ _ (h.weights c) _ fun q _ => density_nonneg op mesh κ h c y q.1

/-- The terms of an inner face. -/
theorem inner_bound (op : Op K) (hw : op.weightsOn = true) (mesh : Mesh K P Q d n) (κ : K) (hκ : 0 ≤ κ) (h : Admissible op mesh κ) (α0 : K) (ha0 : 0 < α0)
    (F : Face K P Q d N) (hF : F ∈ mesh.inner) (x : MeshVec K n) :
    integrateFace F.geo (op.intorder (faceDegree mesh F)) (fun q => faceFlow mesh F.geo F.inside q / 2 *
        (value (mesh.lfs F.inside) (onCell x F.inside) (F.geo.inInside q) ^ 2 -
          value (mesh.lfs F.outside) (onCell x F.outside) (F.geo.inOutside q) ^ 2)) +
      (op.alpha - α0) * integrateFace F.geo (op.intorder (faceDegree mesh F)) (fun q =>
        penalty op.weightsOn 1 (min (mesh.geo F.inside).volume (mesh.geo F.outside).volume / F.geo.volume)
          (conormalS F.geo (mesh.geo F.inside) (mesh.par F.inside) q ⬝ᵥ faceNormal F.geo (mesh.par F.inside) q)
          (conormalN F.geo (mesh.geo F.outside) (mesh.par F.inside) (mesh.par F.outside) q ⬝ᵥ faceNormal F.geo (mesh.par F.inside) q)
          (faceDegree mesh F) d * jump mesh F x q ^ 2) -
      crossTerms op.method * (κ / α0) * (cellEnergy op mesh F.inside (onCell x F.inside) + cellEnergy op mesh F.outside (onCell x F.outside)) ≤
    skeletonForm op F.geo (mesh.geo F.inside) (mesh.geo F.outside) (mesh.par F.inside) (mesh.par F.outside)
        (mesh.lfs F.inside) (mesh.lfs F.outside) (op.intorder (faceDegree mesh F)) (readFace F.inside F.outside x)
        (readFace F.inside F.outside x) := by
  obtain ⟨hFv, hFw, hTS, hTN⟩ := h.inner F hF
  have hm : 0 < min (mesh.geo F.inside).volume (mesh.geo F.outside).volume := lt_min (h.volume _) (h.volume _)
  have hhp := div_pos hm hFv
  have hpp : (0 : K) < ((faceDegree mesh F * (faceDegree mesh F + d - 1) : Nat) : K) :=
    Nat.cast_pos.mpr (pp_pos h.dim (lt_of_lt_of_le (h.degree F.inside) (le_max_left _ _)))
  have bS := trace_bound κ α0 _ F.geo.volume _ (mesh.geo F.inside).volume _
    (((mesh.lfs F.inside).order * ((mesh.lfs F.inside).order + d - 1) : Nat) : K) _ _ hκ ha0 hFv hm (min_le_left _ _) rfl (Nat.cast_nonneg _) hpp
    (Nat.cast_le.mpr (pp_mono (le_max_left _ _))) (cellEnergy_nonneg op mesh κ h F.inside (onCell x F.inside)) (hTS (onCell x F.inside))
  have bN := trace_bound κ α0 _ F.geo.volume _ (mesh.geo F.outside).volume _
    (((mesh.lfs F.outside).order * ((mesh.lfs F.outside).order + d - 1) : Nat) : K) _ _ hκ ha0 hFv hm (min_le_right _ _) rfl (Nat.cast_nonneg _) hpp
    (Nat.cast_le.mpr (pp_mono (le_max_right _ _))) (cellEnergy_nonneg op mesh κ h F.outside (onCell x F.outside)) (hTN (onCell x F.outside))
  have hσ : (0 : K) ≤ crossTerms op.method := by rw [crossTerms_eq]; exact sq_nonneg _
  unfold skeletonForm
  refine le_trans ?_ (integrateFace_mono F.geo (op.intorder (faceDegree mesh F)) hFw
    (fun q => faceFlow mesh F.geo F.inside q / 2 *
        (value (mesh.lfs F.inside) (onCell x F.inside) (F.geo.inInside q) ^ 2 -
          value (mesh.lfs F.outside) (onCell x F.outside) (F.geo.inOutside q) ^ 2) +
      (op.alpha - α0) * (penalty op.weightsOn 1 (min (mesh.geo F.inside).volume (mesh.geo F.outside).volume / F.geo.volume)
          (conormalS F.geo (mesh.geo F.inside) (mesh.par F.inside) q ⬝ᵥ faceNormal F.geo (mesh.par F.inside) q)
          (conormalN F.geo (mesh.geo F.outside) (mesh.par F.inside) (mesh.par F.outside) q ⬝ᵥ faceNormal F.geo (mesh.par F.inside) q)
          (faceDegree mesh F) d * jump mesh F x q ^ 2) -
      crossTerms op.method / (α0 / (min (mesh.geo F.inside).volume (mesh.geo F.outside).volume / F.geo.volume) *
          ((faceDegree mesh F * (faceDegree mesh F + d - 1) : Nat) : K)) *
        (energyDensity mesh F.inside (onCell x F.inside) (F.geo.inInside q) +
          energyDensity mesh F.outside (onCell x F.outside) (F.geo.inOutside q)))
    _ fun q => ?_)
  · rw [integrateFace_lin]
    have h1 := mul_le_mul_of_nonneg_left (add_le_add bS bN) hσ
    rw [← mul_add, ← mul_add] at h1
    have e : ∀ t I : K, crossTerms op.method / t * I = crossTerms op.method * (1 / t * I) := fun t I => by ring
    rw [e]
    linarith
  · have := face_point (sign op.method) op.alpha α0 _ _
        (conormalS F.geo (mesh.geo F.inside) (mesh.par F.inside) q ⬝ᵥ faceNormal F.geo (mesh.par F.inside) q)
        (conormalN F.geo (mesh.geo F.outside) (mesh.par F.inside) (mesh.par F.outside) q ⬝ᵥ faceNormal F.geo (mesh.par F.inside) q)
        (conormalS F.geo (mesh.geo F.inside) (mesh.par F.inside) q ⬝ᵥ
          gradient (mesh.geo F.inside) (mesh.lfs F.inside) (onCell x F.inside) (F.geo.inInside q))
        (conormalN F.geo (mesh.geo F.outside) (mesh.par F.inside) (mesh.par F.outside) q ⬝ᵥ
          gradient (mesh.geo F.outside) (mesh.lfs F.outside) (onCell x F.outside) (F.geo.inOutside q))
        (energyDensity mesh F.inside (onCell x F.inside) (F.geo.inInside q))
        (energyDensity mesh F.outside (onCell x F.outside) (F.geo.inOutside q))
        (faceFlow mesh F.geo F.inside q)
        (value (mesh.lfs F.inside) (onCell x F.inside) (F.geo.inInside q))
        (value (mesh.lfs F.outside) (onCell x F.outside) (F.geo.inOutside q))
        ha0 hhp hpp
        (by unfold conormalS tensor; split <;> exact h.diffusion _ _ _)
        (by unfold conormalN; split <;> exact h.diffusion _ _ _)
        (density_nonneg op mesh κ h _ _ _) (density_nonneg op mesh κ h _ _ _)
        (by
          unfold conormalS energyDensity
          refine cauchy_schwarz _ ?_ ?_ _ _
          · unfold tensor; split <;> exact h.symmetric _ _
          · unfold tensor; split <;> exact h.diffusion _ _)
        (by
          have e : conormalN F.geo (mesh.geo F.outside) (mesh.par F.inside) (mesh.par F.outside) q =
              tensor (mesh.geo F.outside) (mesh.par F.outside) (F.geo.inOutside q) *ᵥ faceNormal F.geo (mesh.par F.inside) q := by
            unfold conormalN tensor
            rw [h.flag F.inside F.outside]
          rw [e]
          unfold energyDensity
          refine cauchy_schwarz _ ?_ ?_ _ _
          · unfold tensor; split <;> exact h.symmetric _ _
          · unfold tensor; split <;> exact h.diffusion _ _)
    rw [← crossTerms_eq] at this
    simp only [hw, penalty, jump, weightS, weightN, if_true]
    exact this

/-- The terms of a boundary face. -/
theorem boundary_bound (op : Op K) (hw : op.weightsOn = true) (mesh : Mesh K P Q d n) (κ : K) (hκ : 0 ≤ κ) (h : Admissible op mesh κ)
    (hb : Incompressible op mesh) (α0 : K) (ha0 : 0 < α0) (F : BoundaryFace K P Q d N) (hF : F ∈ mesh.boundary) (x x' : MeshVec K n) :
    integrateFace F.geo (op.intorder (mesh.lfs F.inside).order) (fun q => faceFlow mesh F.geo F.inside q / 2 *
        value (mesh.lfs F.inside) (onCell (fun i => x i - x' i) F.inside) (F.geo.inInside q) ^ 2) +
      (op.alpha - α0) * integrateFace F.geo (op.intorder (mesh.lfs F.inside).order) (fun q =>
        if F.par.bctype q = .dirichlet then
          F.geo.volume / (mesh.geo F.inside).volume *
            (conormalS F.geo (mesh.geo F.inside) (mesh.par F.inside) q ⬝ᵥ faceNormal F.geo (mesh.par F.inside) q) *
            (((mesh.lfs F.inside).order * ((mesh.lfs F.inside).order + d - 1) : Nat) : K) *
            value (mesh.lfs F.inside) (onCell (fun i => x i - x' i) F.inside) (F.geo.inInside q) ^ 2
        else 0) -
      crossTerms op.method * (κ / α0) * cellEnergy op mesh F.inside (onCell (fun i => x i - x' i) F.inside) ≤
    boundaryForm op F.geo (mesh.geo F.inside) (mesh.par F.inside) F.par (mesh.lfs F.inside)
        (op.intorder (mesh.lfs F.inside).order) (onCell x F.inside) (onCell (fun i => x i - x' i) F.inside) -
      boundaryForm op F.geo (mesh.geo F.inside) (mesh.par F.inside) F.par (mesh.lfs F.inside)
        (op.intorder (mesh.lfs F.inside).order) (onCell x' F.inside) (onCell (fun i => x i - x' i) F.inside) := by
  obtain ⟨hFv, hFw, hTS⟩ := h.boundary F hF
  have hT := h.volume F.inside
  have hhp := div_pos hT hFv
  have hpp : (0 : K) < (((mesh.lfs F.inside).order * ((mesh.lfs F.inside).order + d - 1) : Nat) : K) :=
    Nat.cast_pos.mpr (pp_pos h.dim (h.degree F.inside))
  have bS := trace_bound κ α0 _ F.geo.volume _ (mesh.geo F.inside).volume _
    (((mesh.lfs F.inside).order * ((mesh.lfs F.inside).order + d - 1) : Nat) : K) _ _ hκ ha0 hFv hT le_rfl rfl (Nat.cast_nonneg _) hpp
    le_rfl (cellEnergy_nonneg op mesh κ h F.inside (onCell (fun i => x i - x' i) F.inside)) (hTS (onCell (fun i => x i - x' i) F.inside))
  have hσ : (0 : K) ≤ crossTerms op.method := by rw [crossTerms_eq]; exact sq_nonneg _
  have hτ : 0 < α0 / ((mesh.geo F.inside).volume / F.geo.volume) *
      (((mesh.lfs F.inside).order * ((mesh.lfs F.inside).order + d - 1) : Nat) : K) := mul_pos (div_pos ha0 hhp) hpp
  unfold boundaryForm
  rw [integrateFace_sub]
  refine le_trans ?_ (integrateFace_mono' F.geo (op.intorder (mesh.lfs F.inside).order) hFw
    (fun q => faceFlow mesh F.geo F.inside q / 2 *
        value (mesh.lfs F.inside) (onCell (fun i => x i - x' i) F.inside) (F.geo.inInside q) ^ 2 +
      (op.alpha - α0) * (if F.par.bctype q = .dirichlet then
          F.geo.volume / (mesh.geo F.inside).volume *
            (conormalS F.geo (mesh.geo F.inside) (mesh.par F.inside) q ⬝ᵥ faceNormal F.geo (mesh.par F.inside) q) *
            (((mesh.lfs F.inside).order * ((mesh.lfs F.inside).order + d - 1) : Nat) : K) *
            value (mesh.lfs F.inside) (onCell (fun i => x i - x' i) F.inside) (F.geo.inInside q) ^ 2
        else 0) -
      crossTerms op.method / (α0 / ((mesh.geo F.inside).volume / F.geo.volume) *
          (((mesh.lfs F.inside).order * ((mesh.lfs F.inside).order + d - 1) : Nat) : K)) *
        (energyDensity mesh F.inside (onCell (fun i => x i - x' i) F.inside) (F.geo.inInside q) + 0))
    _ fun q hq => ?_)
  · rw [integrateFace_lin]
    have h1 := mul_le_mul_of_nonneg_left bS hσ
    have e : ∀ t I : K, crossTerms op.method / t * I = crossTerms op.method * (1 / t * I) := fun t I => by ring
    have e0 : integrateFace F.geo (op.intorder (mesh.lfs F.inside).order) (fun _ => 0) = 0 := by
      unfold integrateFace
      simp
    rw [e, e0, add_zero]
    linarith
  · have ha := density_nonneg op mesh κ h F.inside (onCell (fun i => x i - x' i) F.inside) (F.geo.inInside q.1)
    have hrem : 0 ≤ crossTerms op.method / (α0 / ((mesh.geo F.inside).volume / F.geo.volume) *
        (((mesh.lfs F.inside).order * ((mesh.lfs F.inside).order + d - 1) : Nat) : K)) *
        (energyDensity mesh F.inside (onCell (fun i => x i - x' i) F.inside) (F.geo.inInside q.1) + 0) :=
      mul_nonneg (div_nonneg hσ hτ.le) (by linarith)
    have hflow := hb.boundary F hF q hq
    have hsq := sq_nonneg (value (mesh.lfs F.inside) (onCell (fun i => x i - x' i) F.inside) (F.geo.inInside q.1))
    have ev : value (mesh.lfs F.inside) (onCell (fun i => x i - x' i) F.inside) (F.geo.inInside q.1) =
        value (mesh.lfs F.inside) (onCell x F.inside) (F.geo.inInside q.1) - value (mesh.lfs F.inside) (onCell x' F.inside) (F.geo.inInside q.1) :=
      value_sub' _ _ _ _
    have eg : gradient (mesh.geo F.inside) (mesh.lfs F.inside) (onCell (fun i => x i - x' i) F.inside) (F.geo.inInside q.1) =
        gradient (mesh.geo F.inside) (mesh.lfs F.inside) (onCell x F.inside) (F.geo.inInside q.1) -
          gradient (mesh.geo F.inside) (mesh.lfs F.inside) (onCell x' F.inside) (F.geo.inInside q.1) :=
      gradient_sub' _ _ _ _ _
    dsimp only
    have ebn : (mesh.par F.inside).b (F.geo.inInside q.1) ⬝ᵥ F.geo.unitOuterNormal q.1 = faceFlow mesh F.geo F.inside q.1 := rfl
    rw [ebn]
    cases hbc : F.par.bctype q.1 with
    | none =>
      have h1 := mul_nonneg (neg_nonneg.mpr (hflow.2 (Or.inr hbc))) hsq
      simp only [reduceCtorEq, if_false, mul_zero]
      linarith
    | neumann =>
      have h1 := mul_nonneg (neg_nonneg.mpr (hflow.2 (Or.inl hbc))) hsq
      simp only [reduceCtorEq, if_false, mul_zero]
      linarith
    | outflow =>
      have h1 := mul_nonneg (hflow.1 hbc) hsq
      simp only [reduceCtorEq, if_false, mul_zero]
      have e : ∀ a b o v f : K, v = a - b → (a * f + o) * v - (b * f + o) * v = f * v ^ 2 := by
        rintro a b o v f rfl; ring
      rw [e _ _ _ _ _ ev]
      linarith
    | dirichlet =>
      simp only [if_true, hw]
      have hX : (conormalS F.geo (mesh.geo F.inside) (mesh.par F.inside) q.1 ⬝ᵥ
            gradient (mesh.geo F.inside) (mesh.lfs F.inside) (onCell (fun i => x i - x' i) F.inside) (F.geo.inInside q.1)) ^ 2 ≤
          (conormalS F.geo (mesh.geo F.inside) (mesh.par F.inside) q.1 ⬝ᵥ faceNormal F.geo (mesh.par F.inside) q.1) *
            energyDensity mesh F.inside (onCell (fun i => x i - x' i) F.inside) (F.geo.inInside q.1) := by
        unfold conormalS energyDensity
        refine cauchy_schwarz _ ?_ ?_ _ _
        · unfold tensor; split <;> exact h.symmetric _ _
        · unfold tensor; split <;> exact h.diffusion _ _
      have hδ : 0 ≤ conormalS F.geo (mesh.geo F.inside) (mesh.par F.inside) q.1 ⬝ᵥ faceNormal F.geo (mesh.par F.inside) q.1 := by
        unfold conormalS tensor; split <;> exact h.diffusion _ _ _
      have key := side ((1 - sign op.method) / 2) _ _ _ _ (value (mesh.lfs F.inside) (onCell (fun i => x i - x' i) F.inside) (F.geo.inInside q.1))
        hτ hδ ha hX
      rw [← crossTerms_eq] at key
      have eX : conormalS F.geo (mesh.geo F.inside) (mesh.par F.inside) q.1 ⬝ᵥ
          gradient (mesh.geo F.inside) (mesh.lfs F.inside) (onCell (fun i => x i - x' i) F.inside) (F.geo.inInside q.1) =
          conormalS F.geo (mesh.geo F.inside) (mesh.par F.inside) q.1 ⬝ᵥ
            gradient (mesh.geo F.inside) (mesh.lfs F.inside) (onCell x F.inside) (F.geo.inInside q.1) -
          conormalS F.geo (mesh.geo F.inside) (mesh.par F.inside) q.1 ⬝ᵥ
            gradient (mesh.geo F.inside) (mesh.lfs F.inside) (onCell x' F.inside) (F.geo.inInside q.1) := by
        rw [eg, dotProduct_sub]
      exact dirichlet_point _ _ _ _ _ _ _ _ _ _ _ _ _ _ _ _ _ _ rfl ev eX key

theorem list_sum_le {α : Type} (l : List α) (f g : α → K) (h : ∀ a ∈ l, f a ≤ g a) : (l.map f).sum ≤ (l.map g).sum := by
  induction l with
  | nil => simp
  | cons a l ih =>
    simp only [List.map_cons, List.sum_cons]
    exact add_le_add (h a List.mem_cons_self) (ih fun b hb => h b (List.mem_cons_of_mem _ hb))

theorem list_sum_lin {α : Type} (l : List α) (f g e : α → K) (a b : K) :
    (l.map fun F => f F + a * g F - b * e F).sum = (l.map f).sum + a * (l.map g).sum - b * (l.map e).sum := by
  induction l with
  | nil => simp
  | cons a l ih => simp only [List.map_cons, List.sum_cons, ih]; ring

theorem list_sum_add' {α : Type} (l : List α) (f g : α → K) : (l.map fun F => f F + g F).sum = (l.map f).sum + (l.map g).sum := by
  induction l with
  | nil => simp
  | cons a l ih => simp only [List.map_cons, List.sum_cons, ih]; ring

theorem list_sum_sub' {α : Type} (l : List α) (f g : α → K) : (l.map f).sum - (l.map g).sum = (l.map fun F => f F - g F).sum := by
  induction l with
  | nil => simp
  | cons a l ih => simp only [List.map_cons, List.sum_cons, ← ih]; ring

theorem faces_bound (op : Op K) (mesh : Mesh K P Q d n) (κ : K) (h : Admissible op mesh κ) (Nf : Nat) (hf : ∀ c, faces mesh c ≤ Nf) (w : MeshVec K n) :
    (mesh.inner.map fun F => cellEnergy op mesh F.inside (onCell w F.inside) + cellEnergy op mesh F.outside (onCell w F.outside)).sum +
      (mesh.boundary.map fun F => cellEnergy op mesh F.inside (onCell w F.inside)).sum ≤ Nf * diffusionEnergy op mesh w := by
  rw [list_sum_add', count_sum mesh.inner (fun F => F.inside) fun c => cellEnergy op mesh c (onCell w c),
    count_sum mesh.inner (fun F => F.outside) fun c => cellEnergy op mesh c (onCell w c),
    count_sum mesh.boundary (fun F => F.inside) fun c => cellEnergy op mesh c (onCell w c), ← Finset.sum_add_distrib, ← Finset.sum_add_distrib]
  unfold diffusionEnergy
  rw [Finset.mul_sum]
  refine Finset.sum_le_sum fun c _ => ?_
  rw [← add_mul, ← add_mul]
  refine mul_le_mul_of_nonneg_right ?_ (cellEnergy_nonneg op mesh κ h c _)
  rw [← Nat.cast_add, ← Nat.cast_add]
  exact Nat.cast_le.mpr (hf c)

theorem stable (op : Op K) (hw : op.weightsOn = true) (mesh : Mesh K P Q d n) (κ : K) (hκ : 0 ≤ κ) (h : Admissible op mesh κ)
    (hb : Incompressible op mesh) (Nf : Nat) (hf : ∀ c, faces mesh c ≤ Nf) (α0 : K) (ha0 : 0 < α0) (x x' : MeshVec K n)
    (r r' : Calls ((c : Fin N) × Fin (n c)) K) (hr : meshResidual op mesh x = some r) (hr' : meshResidual op mesh x' = some r') :
    (1 - crossTerms op.method * κ * Nf / α0) * diffusionEnergy op mesh (fun i => x i - x' i) + reactionEnergy op mesh (fun i => x i - x' i) +
        (op.alpha - α0) * jumpEnergy op mesh (fun i => x i - x' i) ≤
      tested r (fun i => x i - x' i) - tested r' (fun i => x i - x' i) := by
  rw [mesh_tested op mesh x _ r hr, mesh_tested op mesh x' _ r' hr']
  have h1 := list_sum_le mesh.inner _ _ fun F hF => inner_bound op hw mesh κ hκ h α0 ha0 F hF fun i => x i - x' i
  have h2 := list_sum_le mesh.boundary _ _ fun F hF => boundary_bound op hw mesh κ hκ h hb α0 ha0 F hF x x'
  rw [list_sum_lin] at h1 h2
  rw [← list_sum_sub'] at h2
  have e1 : ∀ F ∈ mesh.inner, skeletonForm op F.geo (mesh.geo F.inside) (mesh.geo F.outside) (mesh.par F.inside) (mesh.par F.outside)
        (mesh.lfs F.inside) (mesh.lfs F.outside) (op.intorder (faceDegree mesh F)) (readFace F.inside F.outside fun i => x i - x' i)
        (readFace F.inside F.outside fun i => x i - x' i) =
      skeletonForm op F.geo (mesh.geo F.inside) (mesh.geo F.outside) (mesh.par F.inside) (mesh.par F.outside)
        (mesh.lfs F.inside) (mesh.lfs F.outside) (op.intorder (faceDegree mesh F)) (readFace F.inside F.outside x)
        (readFace F.inside F.outside fun i => x i - x' i) -
      skeletonForm op F.geo (mesh.geo F.inside) (mesh.geo F.outside) (mesh.par F.inside) (mesh.par F.outside)
        (mesh.lfs F.inside) (mesh.lfs F.outside) (op.intorder (faceDegree mesh F)) (readFace F.inside F.outside x')
        (readFace F.inside F.outside fun i => x i - x' i) := by
    intro F _
    rw [skeleton_difference]
    congr 1
    funext i
    cases i <;> rfl
  rw [List.map_congr_left e1, ← list_sum_sub'] at h1
  have e2 : ∑ c, (volumeForm (mesh.geo c) (mesh.par c) (mesh.lfs c) (op.intorder (mesh.lfs c).order) (onCell x c) (onCell (fun i => x i - x' i) c) +
        tested (lambdaVolume op (mesh.geo c) (mesh.par c) (mesh.lfs c)) (onCell (fun i => x i - x' i) c)) -
      ∑ c, (volumeForm (mesh.geo c) (mesh.par c) (mesh.lfs c) (op.intorder (mesh.lfs c).order) (onCell x' c) (onCell (fun i => x i - x' i) c) +
        tested (lambdaVolume op (mesh.geo c) (mesh.par c) (mesh.lfs c)) (onCell (fun i => x i - x' i) c)) =
      diffusionEnergy op mesh (fun i => x i - x' i) -
        ∑ c, integrate (mesh.geo c) (op.intorder (mesh.lfs c).order) (fun p =>
          value (mesh.lfs c) (onCell (fun i => x i - x' i) c) p *
            ((mesh.par c).b p ⬝ᵥ gradient (mesh.geo c) (mesh.lfs c) (onCell (fun i => x i - x' i) c) p)) +
        reactionEnergy op mesh (fun i => x i - x' i) := by
    unfold diffusionEnergy reactionEnergy cellEnergy
    rw [← Finset.sum_sub_distrib, ← Finset.sum_sub_distrib, ← Finset.sum_add_distrib]
    refine Finset.sum_congr rfl fun c _ => ?_
    rw [add_sub_add_right_eq_sub, volume_difference, ← integrate_lin]
    change volumeForm _ _ _ _ (onCell (fun i => x i - x' i) c) _ = _
    unfold volumeForm
    refine integrate_congr _ _ _ _ fun q _ => ?_
    unfold energyDensity
    ring
  rw [hb.divergence] at e2
  have h3 := faces_bound op mesh κ h Nf hf fun i => x i - x' i
  have hσ : (0 : K) ≤ crossTerms op.method * (κ / α0) :=
    mul_nonneg (by rw [crossTerms_eq]; exact sq_nonneg _) (div_nonneg hκ ha0.le)
  have h4 := mul_le_mul_of_nonneg_left h3 hσ
  have e3 : crossTerms op.method * κ * Nf / α0 * diffusionEnergy op mesh (fun i => x i - x' i) =
      crossTerms op.method * (κ / α0) * (Nf * diffusionEnergy op mesh (fun i => x i - x' i)) := by ring
  have e4 : (op.alpha - α0) * jumpEnergy op mesh (fun i => x i - x' i) = _ := mul_add (op.alpha - α0) _ _
  rw [sub_mul, one_mul, e3, e4]
  linarith

theorem energies_nonneg (op : Op K) (mesh : Mesh K P Q d n) (κ : K) (h : Admissible op mesh κ) (w : MeshVec K n) :
    0 ≤ diffusionEnergy op mesh w ∧ 0 ≤ reactionEnergy op mesh w ∧ 0 ≤ jumpEnergy op mesh w := by
  refine ⟨Finset.sum_nonneg fun c _ => cellEnergy_nonneg op mesh κ h c _, Finset.sum_nonneg fun c _ => ?_, add_nonneg ?_ ?_⟩
  · exact integrate_nonneg _ _ (h.weights c) _ fun q _ => mul_nonneg (h.reaction c _) (sq_nonneg _)
  · refine list_sum_nonneg' _ _ fun F hF => integrateFace_nonneg _ _ (h.inner F hF).2.1 _ fun q _ => mul_nonneg ?_ (sq_nonneg _)
    refine penalty_nonneg _ _ _ _ _ _ _ zero_le_one (div_nonneg (le_min (h.volume _).le (h.volume _).le) (h.inner F hF).1.le) ?_ ?_
    · unfold conormalS tensor; split <;> exact h.diffusion _ _ _
    · unfold conormalN; split <;> exact h.diffusion _ _ _
  · refine list_sum_nonneg' _ _ fun F hF => integrateFace_nonneg _ _ (h.boundary F hF).2.1 _ fun q _ => ?_
    split
    · refine mul_nonneg (mul_nonneg (mul_nonneg (div_nonneg (h.boundary F hF).1.le (h.volume _).le) ?_) (Nat.cast_nonneg _)) (sq_nonneg _)
      unfold conormalS tensor; split <;> exact h.diffusion _ _ _
    · exact le_rfl

end

end Verif.DGMesh
