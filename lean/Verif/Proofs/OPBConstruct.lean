import Verif.Proofs.OPBBasis
namespace Verif.OPB
open FE.Spec (moved point combination quadrature)
open Spec

/-! ### What the constructor establishes -/

theorem mapM_some {α β : Type} (f : α → Option β) (g : α → β) : ∀ l : List α, (∀ x ∈ l, f x = some (g x)) → l.mapM f = some (l.map g)
  | [], _ => rfl
  | x :: l, h => by
    rw [List.mapM_cons, h x (by simp), mapM_some f g l fun y hy => h y (by simp [hy])]
    rfl

theorem mapM_none {α β : Type} (f : α → Option β) (x : α) (hx : f x = none) : ∀ l : List α, x ∈ l → l.mapM f = none
  | y :: l, h => by
    rw [List.mapM_cons]
    rcases List.mem_cons.1 h with rfl | h
    · rw [hx]; rfl
    · cases f y with
      | none => rfl
      | some z => simp [mapM_none f x hx l h]

/-- The constructed basis. -/
structure Built (shape : Shape) (type : BasisType) (d k : Nat) (b : Basis ℝ) : Prop where
  htype : b.type = type
  hd : b.d = d
  hk : b.k = k
  hn : b.n = basisSize type d k
  halpha : ∀ i < b.n, basisMultiindex type d k i = some (b.alpha i)
  good : Good b.n d b.alpha
  ortho : Orthonormal (fun i j => ∫ x in refSet shape d, mono d (addIndex (b.alpha i) (b.alpha j)) (point x)) b.n b.coeffs b.n
  grad : ∀ s < d, ∀ i < b.n, ∀ l ≤ i, b.gradcoeffs s i l = ∑ j ∈ Finset.range (i + 1),
      if (b.alpha j).getD s 0 > 0 ∧ b.alpha l = (b.alpha j).set s ((b.alpha j).getD s 0 - 1) then
        b.coeffs i j * ((b.alpha j).getD s 0 : ℝ) else 0

theorem basis_alphas (type : BasisType) (d k : Nat) (hd : 0 < d) (hk : type = .Pk → k ≤ 24) :
    ∃ alpha : Nat → List Nat, (∀ i < basisSize type d k, basisMultiindex type d k i = some (alpha i)) ∧
      Good (basisSize type d k) d alpha := by
  cases type with
  | Pk =>
    have h : ∀ i < pkSize d k, pkMultiindex d i = some ((pkMultiindex d i).getD []) := by
      intro i hi
      obtain ⟨a, ha, _⟩ := pkMultiindex_spec d i k hd (hk rfl) hi
      rw [ha]; rfl
    exact ⟨_, h, good_Pk d k hd (hk rfl) _ h⟩
  | Qk =>
    refine ⟨qkMultiindex k d, fun i _ => rfl, ?_⟩
    have := good_Qk d k
    rwa [← qkSize_eq] at this

theorem construct_built (shape : Shape) (type : BasisType) (d k : Nat) (hs : supported shape d) (hk : type = .Pk → k ≤ 24)
    (garbage : Nat → Nat → Nat → ℝ) :
    ∃ b, construct Real.sqrt shape type d k garbage = some b ∧ Built shape type d k b := by
  have hd : 0 < d := by
    cases shape with
    | cube => exact hs
    | simplex => exact hs.1
    | other => exact absurd hs (by simp [supported])
  obtain ⟨alpha, halpha, hgood⟩ := basis_alphas type d k hd hk
  obtain ⟨integ, hi, hinteg⟩ := integrator_supported shape d hs
  set n := basisSize type d k with hn
  have hm : (List.range n).mapM (basisMultiindex type d k) = some ((List.range n).map alpha) :=
    mapM_some _ _ _ fun i hi => halpha i (List.mem_range.1 hi)
  let alpha' : Nat → List Nat := fun i => ((List.range n).map alpha).getD i []
  have hal : ∀ i < n, alpha' i = alpha i := by
    intro i hi
    simp only [alpha']
    rw [List.getD_eq_getElem _ _ (by simpa using hi)]
    simp
  have hgood' : Good n d alpha' := by
    refine ⟨fun i hi => by rw [hal i hi]; exact hgood.length i hi, fun i hi j hj h => ?_, fun j hj s hs ha => ?_⟩
    · rw [hal i hi, hal j hj] at h; exact hgood.inj i hi j hj h
    · rw [hal j hj] at ha ⊢
      obtain ⟨l, hl, he⟩ := hgood.down j hj s hs ha
      exact ⟨l, hl, by rw [hal l (by omega)]; exact he⟩
  have hR := refSet_region shape d hs
  have hG : (fun a b => integ (addIndex (alpha' a) (alpha' b))) =
      fun i j => ∫ x in refSet shape d, mono d (addIndex (alpha' i) (alpha' j)) (point x) := by
    funext i j; exact hinteg _
  have hpos : ∀ (u : Nat → ℝ) (i : Nat), i < n → u i ≠ 0 →
      0 < gramForm (fun a b => integ (addIndex (alpha' a) (alpha' b))) n u u := by
    intro u i hi hu
    rw [hG, gramForm_apply, ← poly_product hR n alpha' u u hgood'.length]
    exact poly_square_pos hR n alpha' u hgood'.length hgood'.inj i hi hu
  have hort := gramSchmidt_orthonormal integ alpha' n hpos
  rw [hG] at hort
  obtain ⟨g, hg, hgrad⟩ := gradCoefficients_eq hgood' (gramSchmidt Real.sqrt integ alpha' n) garbage
  refine ⟨{ type, d, k, n, alpha := alpha', coeffs := gramSchmidt Real.sqrt integ alpha' n, gradcoeffs := g }, ?_, ?_⟩
  · unfold construct
    dsimp only
    rw [← hn, hm, hi]
    dsimp only
    rw [hg]
  · exact ⟨rfl, rfl, rfl, hn, fun i hi => by rw [halpha i hi]; exact congrArg some (hal i hi).symm, hgood', hort, hgrad⟩

theorem construct_throws_degree (shape : Shape) (d k : Nat) (hd : 0 < d) (hk : 24 < k) (sqrt : ℝ → ℝ)
    (garbage : Nat → Nat → Nat → ℝ) : construct sqrt shape .Pk d k garbage = none := by
  unfold construct
  dsimp only [basisSize]
  have hlt : pkSize d 24 < pkSize d k := by
    have h1 := pkList_length' d 25 hd (by omega)
    have h2 : 0 < (pkList d 25).length := by
      obtain ⟨n, rfl⟩ := Nat.exists_eq_add_of_lt hd
      simp [pkList]
    have h3 := pkSize_mono d (show 25 ≤ k by omega)
    norm_num at h1
    omega
  rw [mapM_none (basisMultiindex .Pk d k) (pkSize d 24) (pkMultiindex_none d _ le_rfl) _ (List.mem_range.2 hlt)]

theorem integrator_none {K : Type} [Field K] (shape : Shape) (d : Nat) (hd : 0 < d) (h : ¬ supported shape d) :
    integrator (K := K) shape d = none := by
  cases shape with
  | cube => exact absurd hd h
  | simplex =>
    match d, h with
    | 0, _ => rfl
    | 1, h => exact absurd (by simp [supported]) h
    | 2, h => exact absurd (by simp [supported]) h
    | 3, h => exact absurd (by simp [supported]) h
    | d + 4, _ => rfl
  | other => rfl

theorem construct_throws_shape (shape : Shape) (type : BasisType) (d k : Nat) (hd : 0 < d) (h : ¬ supported shape d) (sqrt : ℝ → ℝ)
    (garbage : Nat → Nat → Nat → ℝ) : construct sqrt shape type d k garbage = none := by
  unfold construct
  dsimp only
  rw [integrator_none shape d hd h]
  cases (List.range (basisSize type d k)).mapM (basisMultiindex type d k) <;> rfl

/-! ### The basis functions -/

section Built
variable {shape : Shape} {type : BasisType} {d k : Nat} {b : Basis ℝ}

theorem phi_sum (B : Built shape type d k b) (i : Nat) (hi : i < b.n) (x : Nat → ℝ) :
    ∑ j ∈ Finset.range (i + 1), b.coeffs i j * mono d (b.alpha j) x = poly d b.n b.alpha (b.coeffs i) x := by
  unfold poly
  refine Finset.sum_subset (Finset.range_subset_range.2 (by omega)) fun l _ hl => ?_
  rw [B.ortho.low i hi l (by simpa using hl), zero_mul]

theorem phi_eq (B : Built shape type d k b) (i : Nat) (hi : i < b.n) (x : Nat → ℝ) :
    (evaluateFunction b x).getD i 0 = poly d b.n b.alpha (b.coeffs i) x := by
  rw [evaluateFunction_eq, List.getD_eq_getElem _ _ (by simpa using hi)]
  simp only [List.getElem_map, List.getElem_range]
  rw [B.hd, phi_sum B i hi x]

theorem integral_product (B : Built shape type d k b) (hs : supported shape d) (u v : Nat → ℝ) :
    integral shape d (fun x => poly d b.n b.alpha u x * poly d b.n b.alpha v x) =
      gramForm (fun i j => ∫ x in refSet shape d, mono d (addIndex (b.alpha i) (b.alpha j)) (point x)) b.n u v := by
  rw [integral_eq, poly_product (refSet_region shape d hs) b.n b.alpha u v B.good.length, gramForm_apply]

theorem phi_orthonormal (B : Built shape type d k b) (hs : supported shape d) (i j : Nat) (hi : i < b.n) (hj : j < b.n) :
    integral shape d (fun x => (evaluateFunction b x).getD i 0 * (evaluateFunction b x).getD j 0) = if i = j then 1 else 0 := by
  simp only [phi_eq B i hi, phi_eq B j hj]
  rw [integral_product B hs]
  exact B.ortho.ortho i hi j hj

/-- Coefficient vectors are combinations of the rows. -/
theorem rows_span (B : Built shape type d k b) : ∀ m, m ≤ b.n → ∀ u : Nat → ℝ, (∀ l, m ≤ l → u l = 0) →
    ∃ w : Nat → ℝ, u = ∑ a ∈ Finset.range m, w a • b.coeffs a := by
  intro m
  induction m with
  | zero =>
    intro _ u hu
    refine ⟨fun _ => 0, ?_⟩
    funext l
    simp [hu l (Nat.zero_le l)]
  | succ m ih =>
    intro hm u hu
    have hdiag := B.ortho.diag m (by omega)
    obtain ⟨w, hw⟩ := ih (by omega) (u - (u m / b.coeffs m m) • b.coeffs m) (by
      intro l hl
      simp only [Pi.sub_apply, Pi.smul_apply, smul_eq_mul]
      by_cases h : l = m
      · subst h; field_simp; ring
      · rw [hu l (by omega), B.ortho.low m (by omega) l (by omega)]; ring)
    refine ⟨fun a => if a = m then u m / b.coeffs m m else w a, ?_⟩
    rw [Finset.sum_range_succ]
    dsimp only
    rw [if_pos rfl,
      Finset.sum_congr rfl fun a ha => by rw [if_neg (show ¬ a = m from fun h => by have := Finset.mem_range.1 ha; omega)], ← hw]
    simp

theorem poly_linear (n : Nat) (alpha : Nat → List Nat) (m : Nat) (w : Nat → ℝ) (c : Nat → Nat → ℝ) (x : Nat → ℝ) :
    poly d n alpha (∑ a ∈ Finset.range m, w a • c a) x = ∑ a ∈ Finset.range m, w a * poly d n alpha (c a) x := by
  unfold poly
  simp only [Finset.sum_apply, Pi.smul_apply, smul_eq_mul, Finset.sum_mul, Finset.mul_sum]
  rw [Finset.sum_comm]
  exact Finset.sum_congr rfl fun a _ => Finset.sum_congr rfl fun i _ => by ring

/-- The expansion of a combination of the first monomials. -/
theorem expansion (B : Built shape type d k b) (hs : supported shape d) (m : Nat) (hm : m ≤ b.n) (u : Nat → ℝ)
    (hu : ∀ l, m ≤ l → u l = 0) (x : Nat → ℝ) :
    poly d b.n b.alpha u x = ∑ i ∈ Finset.range m,
      integral shape d (fun x => poly d b.n b.alpha u x * (evaluateFunction b x).getD i 0) * (evaluateFunction b x).getD i 0 := by
  obtain ⟨w, hw⟩ := rows_span B m hm u hu
  have hcoef : ∀ i < m, integral shape d (fun x => poly d b.n b.alpha u x * (evaluateFunction b x).getD i 0) = w i := by
    intro i hi
    simp only [phi_eq B i (show i < b.n by omega)]
    rw [integral_product B hs, hw, map_sum]
    simp only [map_smul, LinearMap.sum_apply, LinearMap.smul_apply, smul_eq_mul]
    rw [Finset.sum_eq_single i]
    · rw [B.ortho.ortho i (by omega) i (by omega), if_pos rfl, mul_one]
    · intro a ha hne
      rw [B.ortho.ortho a (by have := Finset.mem_range.1 ha; omega) i (by omega), if_neg hne, mul_zero]
    · intro h; exact absurd (Finset.mem_range.2 hi) h
  rw [Finset.sum_congr rfl fun i hi => by
    rw [hcoef i (Finset.mem_range.1 hi), phi_eq B i (by have := Finset.mem_range.1 hi; omega)]]
  conv_lhs => rw [hw]
  exact poly_linear b.n b.alpha m w b.coeffs x

/-! ### The spaces -/

theorem mono_list (a : Nat → Nat) (x : Nat → ℝ) : mono d ((List.range d).map a) x = ∏ j ∈ Finset.range d, x j ^ a j := by
  unfold mono
  refine Finset.prod_congr rfl fun j hj => ?_
  rw [List.getD_eq_getElem _ _ (by simpa using hj)]
  simp

theorem poly_unit (n : Nat) (alpha : Nat → List Nat) (i : Nat) (hi : i < n) (x : Nat → ℝ) :
    poly d n alpha (unit i) x = mono d (alpha i) x := by
  unfold poly
  rw [Finset.sum_eq_single i]
  · simp [unit]
  · intro a _ hne; simp [unit, Ne.symm hne]
  · intro h; exact absurd (Finset.mem_range.2 hi) h

theorem poly_add (n : Nat) (alpha : Nat → List Nat) (u v : Nat → ℝ) (x : Nat → ℝ) :
    poly d n alpha (u + v) x = poly d n alpha u x + poly d n alpha v x := by
  unfold poly
  simp only [Pi.add_apply, add_mul, Finset.sum_add_distrib]

theorem poly_smul (n : Nat) (alpha : Nat → List Nat) (r : ℝ) (u : Nat → ℝ) (x : Nat → ℝ) :
    poly d n alpha (r • u) x = r * poly d n alpha u x := by
  unfold poly
  simp only [Pi.smul_apply, smul_eq_mul, mul_assoc, Finset.mul_sum]

theorem Pk_poly (B : Built shape .Pk d k b) (hd : 0 < d) (hk : k ≤ 24) (l : Nat) (hl : l ≤ k) (f : (Nat → ℝ) → ℝ) (hf : Pk l d f) :
    ∃ u : Nat → ℝ, (∀ i, pkSize d l ≤ i → u i = 0) ∧ f = poly d b.n b.alpha u := by
  have hsize : pkSize d l ≤ b.n := by rw [B.hn]; exact pkSize_mono d hl
  induction hf with
  | monomial a h =>
    have hsum : ((List.range d).map a).sum ≤ l := by rw [sum_map_range]; exact h
    obtain ⟨i, hi, he⟩ := pkMultiindex_surjective d ((List.range d).map a) hd (by simp) (by omega)
    have hi' : i < pkSize d l := hi.trans_le (pkSize_mono d hsum)
    have hal := B.halpha i (by omega)
    rw [show basisMultiindex .Pk d k i = pkMultiindex d i from rfl, he] at hal
    refine ⟨unit i, fun j hj => ?_, ?_⟩
    · simp [unit]; omega
    · funext x
      rw [poly_unit _ _ _ (by omega), ← Option.some.inj hal, mono_list]
  | add f g _ _ hf hg =>
    obtain ⟨u, hu, rfl⟩ := hf
    obtain ⟨v, hv, rfl⟩ := hg
    exact ⟨u + v, fun i hi => by simp [hu i hi, hv i hi], by funext x; rw [poly_add]⟩
  | smul r f _ hf =>
    obtain ⟨u, hu, rfl⟩ := hf
    exact ⟨r • u, fun i hi => by simp [hu i hi], by funext x; rw [poly_smul]⟩

theorem Pk_sum (l m : Nat) (F : Nat → (Nat → ℝ) → ℝ) (h : ∀ i < m, Pk l d (F i)) :
    Pk l d fun x => ∑ i ∈ Finset.range m, F i x := by
  induction m with
  | zero =>
    have := Pk.smul (k := l) (d := d) (0 : ℝ) _ (Pk.monomial (fun _ => 0) (by simp))
    simpa using this
  | succ m ih =>
    simp only [Finset.sum_range_succ]
    exact Pk.add _ _ (ih fun i hi => h i (by omega)) (h m (by omega))

theorem mono_Pk (B : Built shape .Pk d k b) (hd : 0 < d) (hk : k ≤ 24) (l : Nat) (hl : l ≤ k) (i : Nat) (hi : i < pkSize d l) :
    Pk l d fun x : Nat → ℝ => mono d (b.alpha i) x := by
  have hsize : pkSize d l ≤ b.n := by rw [B.hn]; exact pkSize_mono d hl
  obtain ⟨a, h1, h2, h3, _⟩ := pkMultiindex_spec d i l hd (by omega) hi
  have hal := B.halpha i (by omega)
  rw [show basisMultiindex .Pk d k i = pkMultiindex d i from rfl, h1] at hal
  rw [← Option.some.inj hal]
  unfold mono
  refine Pk.monomial (fun j => a.getD j 0) ?_
  have : ∑ j ∈ Finset.range d, a.getD j 0 = a.sum := by
    rw [← sum_map_range, ← h2]
    congr 1
    refine List.ext_getElem (by simp) fun j h1 h2 => ?_
    simp only [List.getElem_map, List.getElem_range]
    exact List.getD_eq_getElem _ _ h2
  rw [this]; exact h3

theorem phi_Pk (B : Built shape .Pk d k b) (hd : 0 < d) (hk : k ≤ 24) (l : Nat) (hl : l ≤ k) (i : Nat) (hi : i < pkSize d l) :
    Pk l d fun x : Nat → ℝ => (evaluateFunction b x).getD i 0 := by
  have hsize : pkSize d l ≤ b.n := by rw [B.hn]; exact pkSize_mono d hl
  simp only [phi_eq B i (show i < b.n by omega), ← phi_sum B i (show i < b.n by omega)]
  exact Pk_sum l (i + 1) _ fun j hj => Pk.smul _ _ (mono_Pk B hd hk l hl j (by omega))

theorem Qk_sum (l m : Nat) (F : Nat → (Nat → ℝ) → ℝ) (h : ∀ i < m, FE.Spec.Qk l d (F i)) :
    FE.Spec.Qk l d fun x => ∑ i ∈ Finset.range m, F i x := by
  induction m with
  | zero =>
    have := FE.Spec.Qk.smul (k := l) (d := d) (0 : ℝ) _ (FE.Spec.Qk.product (fun _ => 1) (by simp))
    simpa using this
  | succ m ih =>
    simp only [Finset.sum_range_succ]
    exact FE.Spec.Qk.add _ _ (ih fun i hi => h i (by omega)) (h m (by omega))

theorem alpha_Qk (B : Built shape .Qk d k b) (i : Nat) (hi : i < b.n) : b.alpha i = FE.multiindex k d i := by
  have := B.halpha i hi
  rw [show basisMultiindex .Qk d k i = some (qkMultiindex k d i) from rfl, qkMultiindex_eq] at this
  exact (Option.some.inj this).symm

theorem n_Qk (B : Built shape .Qk d k b) : b.n = (k + 1) ^ d := by rw [B.hn]; exact qkSize_eq d k

theorem phi_Qk (B : Built shape .Qk d k b) (i : Nat) (hi : i < b.n) :
    FE.Spec.Qk k d fun x : Nat → ℝ => (evaluateFunction b x).getD i 0 := by
  simp only [phi_eq B i hi, ← phi_sum B i hi]
  refine Qk_sum k (i + 1) _ fun j hj => FE.Spec.Qk.smul _ _ ?_
  rw [alpha_Qk B j (by omega)]
  have : mono d (FE.multiindex k d j) =
      fun x => ∏ m ∈ Finset.range d, (Polynomial.X ^ (FE.multiindex k d j).getD m 0 : Polynomial ℝ).eval (x m) := by
    funext x; simp [mono]
  rw [this]
  exact FE.Spec.Qk.product _ fun m _ => by rw [Polynomial.natDegree_X_pow]; exact FE.multiindex_getD_le k d j m

theorem Qk_poly (B : Built shape .Qk d k b) (f : (Nat → ℝ) → ℝ) (hf : FE.Spec.Qk k d f) :
    ∃ u : Nat → ℝ, (∀ i, b.n ≤ i → u i = 0) ∧ f = poly d b.n b.alpha u := by
  induction hf with
  | product g hg =>
    refine ⟨fun i => if i < b.n then ∏ j ∈ Finset.range d, (g j).coeff ((FE.multiindex k d i).getD j 0) else 0,
      fun i hi => if_neg (by omega), ?_⟩
    funext x
    have h1 : ∀ j ∈ Finset.range d, (g j).eval (x j) = ∑ a ∈ Finset.range (k + 1), (g j).coeff a * x j ^ a := by
      intro j hj
      exact Polynomial.eval_eq_sum_range' (Nat.lt_succ_of_le (hg j (Finset.mem_range.1 hj))) _
    rw [Finset.prod_congr rfl h1, ← FE.sum_tensor k d fun j a => (g j).coeff a * x j ^ a]
    unfold poly
    rw [n_Qk B]
    refine Finset.sum_congr rfl fun i hi => ?_
    have hi' := Finset.mem_range.1 hi
    dsimp only
    rw [if_pos hi', alpha_Qk B i (by rw [n_Qk B]; exact hi'), mono, ← Finset.prod_mul_distrib]
  | add f g _ _ hf hg =>
    obtain ⟨u, hu, rfl⟩ := hf
    obtain ⟨v, hv, rfl⟩ := hg
    exact ⟨u + v, fun i hi => by simp [hu i hi, hv i hi], by funext x; rw [poly_add]⟩
  | smul r f _ hf =>
    obtain ⟨u, hu, rfl⟩ := hf
    exact ⟨r • u, fun i hi => by simp [hu i hi], by funext x; rw [poly_smul]⟩

theorem phi_space (B : Built shape type d k b) (hd : 0 < d) (hk : type = .Pk → k ≤ 24) (i : Nat) (hi : i < b.n) :
    space type k d fun x : Nat → ℝ => (evaluateFunction b x).getD i 0 := by
  cases type with
  | Pk => exact phi_Pk B hd (hk rfl) k le_rfl i (by rw [B.hn] at hi; exact hi)
  | Qk => exact phi_Qk B i hi

theorem space_poly (B : Built shape type d k b) (hd : 0 < d) (hk : type = .Pk → k ≤ 24) (f : (Nat → ℝ) → ℝ) (hf : space type k d f) :
    ∃ u : Nat → ℝ, (∀ i, b.n ≤ i → u i = 0) ∧ f = poly d b.n b.alpha u := by
  cases type with
  | Pk =>
    obtain ⟨u, h1, h2⟩ := Pk_poly B hd (hk rfl) k le_rfl f hf
    exact ⟨u, by rw [B.hn]; exact h1, h2⟩
  | Qk => exact Qk_poly B f hf

/-! ### Derivatives -/

theorem phi_hasDerivAt (B : Built shape type d k b) (i s : Nat) (hi : i < b.n) (hs : s < d) (x : Nat → ℝ) :
    HasDerivAt (fun t => (evaluateFunction b (moved x s t)).getD i 0)
      (∑ j ∈ Finset.range (i + 1), b.gradcoeffs s i j * mono d (b.alpha j) x) (x s) := by
  rw [gradient_sum B.good b.coeffs b.gradcoeffs s i hs hi (fun l hl => B.grad s hs i hi l hl) fun a => mono d a x]
  simp only [phi_eq B i hi, ← phi_sum B i hi]
  refine HasDerivAt.fun_sum fun j hj => ?_
  have := (mono_hasDerivAt d (b.alpha j) (B.good.length j (by have := Finset.mem_range.1 hj; omega)) s hs x).const_mul (b.coeffs i j)
  rwa [← mul_assoc] at this

/-! ### Interpolation -/

theorem interpolate_eq (b : Basis ℝ) (rule : List ((Nat → ℝ) × ℝ)) (f : (Nat → ℝ) → ℝ) :
    interpolate b rule f = (List.range b.n).map fun i => quadrature rule fun x => f x * (evaluateFunction b x).getD i 0 := by
  unfold interpolate
  have key : ∀ (rule : List ((Nat → ℝ) × ℝ)) (o : Nat → ℝ),
      rule.foldl (fun out xw => (List.range b.n).map fun i => out.getD i 0 + f xw.1 * (evaluateFunction b xw.1).getD i 0 * xw.2)
        ((List.range b.n).map o) =
      (List.range b.n).map fun i => o i + quadrature rule fun x => f x * (evaluateFunction b x).getD i 0 := by
    intro rule
    induction rule with
    | nil => intro o; simp [quadrature]
    | cons xw rule ih =>
      intro o
      rw [List.foldl_cons]
      have e : ((List.range b.n).map fun i => ((List.range b.n).map o).getD i 0 + f xw.1 * (evaluateFunction b xw.1).getD i 0 * xw.2) =
          (List.range b.n).map fun i => o i + f xw.1 * (evaluateFunction b xw.1).getD i 0 * xw.2 := by
        refine List.map_congr_left fun i hi => ?_
        rw [List.getD_eq_getElem _ _ (by simpa using hi)]
        simp
      rw [e, ih]
      refine List.map_congr_left fun i _ => ?_
      simp only [quadrature, List.map_cons, List.sum_cons]
      ring
  have hz : List.replicate b.n (0 : ℝ) = (List.range b.n).map fun _ => 0 := by simp
  dsimp only
  rw [hz, key]
  simp

theorem Pk_mul (k l d : Nat) (f g : (Nat → ℝ) → ℝ) (hf : Pk k d f) (hg : Pk l d g) : Pk (k + l) d fun x => f x * g x := by
  induction hf with
  | monomial a ha =>
    induction hg with
    | monomial c hc =>
      have := Pk.monomial (K := ℝ) (k := k + l) (d := d) (fun j => a j + c j) (by rw [Finset.sum_add_distrib]; omega)
      simpa only [pow_add, Finset.prod_mul_distrib] using this
    | add f g _ _ hf hg => simp only [mul_add]; exact Pk.add _ _ hf hg
    | smul r f _ hf => simp only [mul_left_comm _ r]; exact Pk.smul _ _ hf
  | add f g _ _ hf hg => simp only [add_mul]; exact Pk.add _ _ hf hg
  | smul r f _ hf => simp only [mul_assoc]; exact Pk.smul _ _ hf

theorem Qk_mul (k l d : Nat) (f g : (Nat → ℝ) → ℝ) (hf : FE.Spec.Qk k d f) (hg : FE.Spec.Qk l d g) :
    FE.Spec.Qk (k + l) d fun x => f x * g x := by
  induction hf with
  | product a ha =>
    induction hg with
    | product c hc =>
      have := FE.Spec.Qk.product (K := ℝ) (k := k + l) (d := d) (fun j => a j * c j) (fun j hj =>
        Polynomial.natDegree_mul_le.trans (Nat.add_le_add (ha j hj) (hc j hj)))
      simpa only [Polynomial.eval_mul, Finset.prod_mul_distrib] using this
    | add f g _ _ hf hg => simp only [mul_add]; exact FE.Spec.Qk.add _ _ hf hg
    | smul r f _ hf => simp only [mul_left_comm _ r]; exact FE.Spec.Qk.smul _ _ hf
  | add f g _ _ hf hg => simp only [add_mul]; exact FE.Spec.Qk.add _ _ hf hg
  | smul r f _ hf => simp only [mul_assoc]; exact FE.Spec.Qk.smul _ _ hf

theorem space_mul (type : BasisType) (k d : Nat) (f g : (Nat → ℝ) → ℝ) (hf : space type k d f) (hg : space type k d g) :
    space type (2 * k) d fun x => f x * g x := by
  rw [two_mul]
  cases type with
  | Pk => exact Pk_mul k k d f g hf hg
  | Qk => exact Qk_mul k k d f g hf hg

end Built
end Verif.OPB
