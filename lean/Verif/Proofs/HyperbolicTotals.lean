import Verif.Proofs.Hyperbolic
import Verif.Proofs.ConvectionDiffusion
set_option linter.unusedSectionVars false
/-
Lemmas for C161-C164: upwind fluxes, and totals of the contributions.
-/
namespace Verif
open LocalOp LocalOp.Spec LocalOp.Hyperbolic Matrix

section
variable {K P Q : Type} [Field K] [LinearOrder K] [IsStrictOrderedRing K] {d n ns nn m : Nat}

/-! ### Linearity of the fluxes -/

theorem acousticNormalFlux_add (c : K) (nF : Fin d → K) (u v : Fin (d + 1) → K) :
    acousticNormalFlux c nF (u + v) = acousticNormalFlux c nF u + acousticNormalFlux c nF v := by
  ext i
  refine Fin.cases ?_ (fun k => ?_) i
  · simp only [Pi.add_apply, acousticNormalFlux_zero, ← Finset.sum_add_distrib]
    exact Finset.sum_congr rfl fun j _ => by ring
  · simp only [Pi.add_apply, acousticNormalFlux_succ]
    ring

theorem acousticNormalFlux_smul (c : K) (nF : Fin d → K) (a : K) (u : Fin (d + 1) → K) :
    acousticNormalFlux c nF (a • u) = a • acousticNormalFlux c nF u := by
  ext i
  refine Fin.cases ?_ (fun k => ?_) i
  · simp only [Pi.smul_apply, acousticNormalFlux_zero, smul_eq_mul, Finset.mul_sum]
    exact Finset.sum_congr rfl fun j _ => by ring
  · simp only [Pi.smul_apply, acousticNormalFlux_succ, smul_eq_mul]
    ring

theorem maxwellNormalFlux_add (eps mu : K) (nF : Fin 3 → K) (u v : Fin 6 → K) :
    maxwellNormalFlux eps mu nF (u + v) = maxwellNormalFlux eps mu nF u + maxwellNormalFlux eps mu nF v := by
  simp only [maxwellNormalFlux_eq, Matrix.mulVec_add]

theorem maxwellNormalFlux_smul (eps mu : K) (nF : Fin 3 → K) (a : K) (u : Fin 6 → K) :
    maxwellNormalFlux eps mu nF (a • u) = a • maxwellNormalFlux eps mu nF u := by
  simp only [maxwellNormalFlux_eq, Matrix.mulVec_smul]

/-! ### Upwind fluxes -/

section
variable {ι : Type} {A B : (ι → K) → ι → K}

theorem split_plus (two : (2 : K) ≠ 0) (ha : ∀ u v, A (u + v) = A u + A v) (hs : ∀ (a : K) u, A (a • u) = a • A u) {c : K}
    (hc : c ≠ 0) {u p q : ι → K} (h : IsWaveSplitting A c u p q) : (1 / (2 * c)) • (A (A u) + c • A u) = c • p := by
  obtain ⟨hp, hq, hr⟩ := h
  have hu : u = p + q + (u - p - q) := by abel
  have hAu : A u = c • p - c • q := by
    rw [hu, ha, ha, hp, hq, hr, add_zero, neg_smul, sub_eq_add_neg]
  have hAAu : A (A u) = (c * c) • p + (c * c) • q := by
    have : c • p - c • q = c • p + (-c) • q := by rw [neg_smul, sub_eq_add_neg]
    rw [hAu, this, ha, hs, hs, hp, hq, smul_smul, smul_smul]
    ring_nf
  rw [hAAu, hAu]
  ext i
  simp only [Pi.smul_apply, Pi.add_apply, Pi.sub_apply, smul_eq_mul]
  field_simp
  ring

theorem split_minus (two : (2 : K) ≠ 0) (ha : ∀ u v, A (u + v) = A u + A v) (hs : ∀ (a : K) u, A (a • u) = a • A u) {c : K}
    (hc : c ≠ 0) {u p q : ι → K} (h : IsWaveSplitting A c u p q) : (1 / (2 * c)) • (-A (A u) + c • A u) = -c • q := by
  obtain ⟨hp, hq, hr⟩ := h
  have hu : u = p + q + (u - p - q) := by abel
  have hAu : A u = c • p - c • q := by
    rw [hu, ha, ha, hp, hq, hr, add_zero, neg_smul, sub_eq_add_neg]
  have hAAu : A (A u) = (c * c) • p + (c * c) • q := by
    have : c • p - c • q = c • p + (-c) • q := by rw [neg_smul, sub_eq_add_neg]
    rw [hAu, this, ha, hs, hs, hp, hq, smul_smul, smul_smul]
    ring_nf
  rw [hAAu, hAu]
  ext i
  simp only [Pi.smul_apply, Pi.add_apply, Pi.sub_apply, Pi.neg_apply, smul_eq_mul]
  field_simp
  ring

/-- A linear map with `A³ = c²A` splits every state. -/
theorem exists_split (two : (2 : K) ≠ 0) (ha : ∀ u v, A (u + v) = A u + A v) (hs : ∀ (a : K) u, A (a • u) = a • A u) {c : K}
    (hc : c ≠ 0) (hA : ∀ u, A (A (A u)) = (c * c) • A u) (u : ι → K) : ∃ p q, IsWaveSplitting A c u p q := by
  have hn : ∀ v, A (-v) = -A v := fun v => by rw [← neg_one_smul K v, hs, neg_one_smul]
  refine ⟨(1 / (2 * c * c)) • (A (A u) + c • A u), (1 / (2 * c * c)) • (A (A u) + (-c) • A u), ?_, ?_, ?_⟩
  · rw [hs, ha, hs, hA]
    ext i
    simp only [Pi.smul_apply, Pi.add_apply, smul_eq_mul]
    field_simp
    try ring
  · rw [hs, ha, hs, hA]
    ext i
    simp only [Pi.smul_apply, Pi.add_apply, smul_eq_mul]
    field_simp
    try ring
  · rw [sub_eq_add_neg, sub_eq_add_neg, ha, ha, hn, hn, hs, hs, ha, ha, hs, hs, hA]
    ext i
    simp only [Pi.smul_apply, Pi.add_apply, Pi.neg_apply, Pi.zero_apply, smul_eq_mul]
    field_simp
    ring

end

/-! ### Totals -/

theorem total_forBasis (v : Fin m → Fin n → K) (i : Fin m) (k : Fin n) : total (forBasis v) (i, k) = v i k :=
  total_forEach₂ v i k

theorem total_map_fin {ι : Type} [DecidableEq ι] (g : Fin n → ι) (v : Fin n → K) (i : ι) :
    total ((List.finRange n).map fun a => (g a, v a)) i = ∑ a, if g a = i then v a else 0 := by
  have : ∀ l : List (Fin n), total (l.map fun a => (g a, v a)) i = (l.map fun a => if g a = i then v a else 0).sum := by
    intro l
    induction l with
    | nil => rfl
    | cons a l ih => simp [total_cons, ih]
  rw [this, ← List.ofFn_eq_map, List.sum_ofFn]

theorem total_flatMap_fin {ι : Type} [DecidableEq ι] (f : Fin n → Calls ι K) (i : ι) :
    total ((List.finRange n).flatMap f) i = ∑ a, total (f a) i := by
  rw [total_flatMap, ← List.ofFn_eq_map, List.sum_ofFn]

theorem total_forComponents (v : Fin m → Fin n → K) (i : Fin m) (k : Fin n) : total (forComponents v) (i, k) = v i k := by
  unfold forComponents
  rw [total_flatMap_fin]
  simp only [total_map_fin, Prod.mk.injEq]
  rw [Finset.sum_eq_single i, Finset.sum_eq_single k]
  · simp
  · intro b _ hb; simp [hb]
  · simp
  · intro b _ hb; simp [hb]
  · simp

theorem total_faceCalls_inl (f : Fin m → K) (phiS : Fin ns → K) (phiN : Fin nn → K) (factor : K) (i : Fin m) (k : Fin ns) :
    total (faceCalls f phiS phiN factor) (.inl (i, k)) = f i * phiS k * factor := by
  unfold faceCalls
  rw [total_append, total_map_inj _ Sum.inl_injective, total_map_ne _ _ _ (by simp), total_forBasis, add_zero]

theorem total_faceCalls_inr (f : Fin m → K) (phiS : Fin ns → K) (phiN : Fin nn → K) (factor : K) (i : Fin m) (k : Fin nn) :
    total (faceCalls f phiS phiN factor) (.inr (i, k)) = -f i * phiN k * factor := by
  unfold faceCalls
  rw [total_append, total_map_inj _ Sum.inr_injective, total_map_ne _ _ _ (by simp), total_forBasis, zero_add]

/-! ### The two fluxes -/

theorem acoustics_flux (hd : d = 1 ∨ d = 2 ∨ d = 3) {solve : Acoustics.Solve K} (hs : Solves solve) {cS cN : K}
    (hS : cS ≠ 0) (hN : cN ≠ 0) {nF : Fin d → K} (h : nF ⬝ᵥ nF = 1) (uS uN : Fin (d + 1) → K) :
    Acoustics.numericalFlux solve cS cN nF uS uN =
      (1 / (2 * cS)) • (acousticNormalFlux cS nF (acousticNormalFlux cS nF uS) + cS • acousticNormalFlux cS nF uS) +
      (1 / (2 * cN)) • (-acousticNormalFlux cN nF (acousticNormalFlux cN nF uN) + cN • acousticNormalFlux cN nF uN) := by
  unfold Acoustics.numericalFlux
  rw [acoustics_aPlus d hd hs cS hS nF h, acoustics_aMinus d hd hs cN hN nF h]

theorem acoustic_cubed (c : K) {nF : Fin d → K} (h : nF ⬝ᵥ nF = 1) (u : Fin (d + 1) → K) :
    acousticNormalFlux c nF (acousticNormalFlux c nF (acousticNormalFlux c nF u)) = (c * c) • acousticNormalFlux c nF u := by
  ext i
  refine Fin.cases ?_ (fun k => ?_) i
  · rw [acoustic_twice c nF h, Pi.smul_apply, smul_eq_mul]
    ring
  · rw [acousticNormalFlux_succ, Pi.smul_apply, smul_eq_mul, acousticNormalFlux_succ, acoustic_twice c nF h]
    ring

theorem maxwell_parts {sqrt : K → K} {invert : Maxwell.Invert K} (hi : Inverts invert) {eps mu : K} (he0 : 0 < eps)
    (hm0 : 0 < mu) (he : RootOf sqrt eps) (hm : RootOf sqrt mu) (hem : RootOf sqrt (eps * mu)) {nF : Fin 3 → K}
    (h : nF ⬝ᵥ nF = 1) (u : Fin 6 → K) :
    Maxwell.aPlus sqrt invert eps mu nF *ᵥ u =
      (1 / (2 * (1 / sqrt (eps * mu)))) • (maxwellNormalFlux eps mu nF (maxwellNormalFlux eps mu nF u) +
        (1 / sqrt (eps * mu)) • maxwellNormalFlux eps mu nF u) ∧
    Maxwell.aMinus sqrt invert eps mu nF *ᵥ u =
      (1 / (2 * (1 / sqrt (eps * mu)))) • (-maxwellNormalFlux eps mu nF (maxwellNormalFlux eps mu nF u) +
        (1 / sqrt (eps * mu)) • maxwellNormalFlux eps mu nF u) := by
  have hdet := maxwell_eigenvectors_det sqrt eps mu he hm he0.ne' hm0.ne' nF h
  have hMR := maxwell_eigenvectors sqrt eps mu he hm he0.ne' hm0.ne' nF h
  rw [← rootOf_mul he hm hem] at hMR
  have hs : (1 / sqrt (eps * mu)) ≠ 0 := by
    refine one_div_ne_zero fun hh => ?_
    have := hem.1
    rw [hh, zero_mul] at this
    exact (mul_pos he0 hm0).ne this
  obtain ⟨h1, h2⟩ := diagonalised_parts _ _ _ _ hs hMR (hi _ hdet)
  constructor
  · unfold Maxwell.aPlus
    simp only
    rw [h1, Matrix.smul_mulVec, Matrix.add_mulVec, Matrix.smul_mulVec, ← Matrix.mulVec_mulVec, ← maxwellNormalFlux_eq,
      ← maxwellNormalFlux_eq]
  · unfold Maxwell.aMinus
    simp only [neg_div]
    rw [h2, Matrix.smul_mulVec, Matrix.add_mulVec, Matrix.neg_mulVec, Matrix.smul_mulVec, ← Matrix.mulVec_mulVec,
      ← maxwellNormalFlux_eq, ← maxwellNormalFlux_eq]

theorem maxwell_cubed {eps mu : K} (he0 : eps ≠ 0) (hm0 : mu ≠ 0) {nF : Fin 3 → K} (h : nF ⬝ᵥ nF = 1) (u : Fin 6 → K) :
    maxwellNormalFlux eps mu nF (maxwellNormalFlux eps mu nF (maxwellNormalFlux eps mu nF u))
      = (1 / (eps * mu)) • maxwellNormalFlux eps mu nF u := by
  simp only [dotProduct, Fin.sum_univ_succ, Fin.sum_univ_zero] at h
  simp at h
  have h' : nF 0 ^ 2 = 1 - nF 1 ^ 2 - nF 2 ^ 2 := by linear_combination h
  ext i
  fin_cases i <;> simp [maxwellNormalFlux, cross_apply, dPart, bPart] <;> field_simp <;> ring_nf <;>
    (try rw [show nF 0 ^ 3 = nF 0 * nF 0 ^ 2 by ring]) <;> rw [h'] <;> ring

/-! ### Energy -/

section
variable {ι : Type} {A : (ι → K) → ι → K} {E : (ι → K) → (ι → K) → K}

theorem upwind_dissipates (ha : ∀ u v, A (u + v) = A u + A v) (hs : ∀ (a : K) u, A (a • u) = a • A u)
    (Ea : ∀ u v w, E (u + v) w = E u w + E v w) (Es : ∀ (a : K) u v, E (a • u) v = a * E u v) (Ec : ∀ u v, E u v = E v u)
    (EA : ∀ u v, E (A u) v = E u (A v)) (E0 : ∀ u, 0 ≤ E u u) {c : K} (hc : 0 < c) (uS uN : ι → K) :
    E (A uS) uS / 2 - E (A uN) uN / 2 ≤
      E ((1 / (2 * c)) • (A (A uS) + c • A uS) + (1 / (2 * c)) • (-A (A uN) + c • A uN)) (uS - uN) := by
  have hn : ∀ v, A (-v) = -A v := fun v => by rw [← neg_one_smul K v, hs, neg_one_smul]
  have En : ∀ u v, E (-u) v = -E u v := fun u v => by rw [← neg_one_smul K u, Es, neg_one_mul]
  have Ea' : ∀ u v w, E w (u + v) = E w u + E w v := fun u v w => by rw [Ec, Ea, Ec u, Ec v]
  have En' : ∀ u v, E v (-u) = -E v u := fun u v => by rw [Ec, En, Ec u]
  have key : E (A (uS - uN)) (A (uS - uN)) / (2 * c) =
      E ((1 / (2 * c)) • (A (A uS) + c • A uS) + (1 / (2 * c)) • (-A (A uN) + c • A uN)) (uS - uN)
        - (E (A uS) uS / 2 - E (A uN) uN / 2) := by
    simp only [sub_eq_add_neg, ha, hn, Ea, Es, En, Ea', En']
    rw [EA (A uS) uS, EA (A uS) uN, EA (A uN) uS, EA (A uN) uN, EA uN uS, Ec uN (A uS)]
    field_simp
    ring
  have : 0 ≤ E (A (uS - uN)) (A (uS - uN)) / (2 * c) := div_nonneg (E0 _) (by linarith)
  linarith [key]

end

/-! ### Contributions at a quadrature point -/

theorem withCache_some {α : Type} {orders : List Nat} (h : ∀ o ∈ orders, o < 20) (r : α) : withCache orders r = some r := by
  unfold withCache
  rw [if_pos]
  simpa using h

theorem withCache_isSome {α : Type} (orders : List Nat) (r : α) : (withCache orders r).isSome ↔ ∀ o ∈ orders, o < 20 := by
  unfold withCache
  split <;> simp_all

theorem total_quadrature {ι : Type} [DecidableEq ι] (rule : List (P × K)) (ie f : P → K) (calls : P × K → Calls ι K) (i : ι)
    (h : ∀ p w, total (calls (p, w)) i = f p * (w * ie p)) :
    total (rule.flatMap calls) i = quadrature rule ie f := by
  rw [total_flatMap]
  unfold quadrature
  congr 1
  exact List.map_congr_left fun q _ => h q.1 q.2

theorem total_acoustics_volume_point (c2 factor : K) (u : Fin (d + 1) → K) (g : Fin n → Fin d → K) (i : Fin (d + 1)) (k : Fin n) :
    total ((List.finRange n).flatMap fun k =>
      ((List.finRange d).map fun j => (((0 : Fin (d + 1)), k), -u j.succ * g k j * factor)) ++
      ((List.finRange d).map fun j => ((j.succ, k), -c2 * u 0 * g k j * factor))) (i, k)
      = -(∑ j, Fin.cases (motive := fun _ => K) (u j.succ) (fun l => if l = j then c2 * u 0 else 0) i * g k j) * factor := by
  rw [total_flatMap_fin, Finset.sum_eq_single k]
  · rw [total_append, total_map_fin, total_map_fin]
    refine Fin.cases ?_ (fun l => ?_) i
    · simp only [if_true, Fin.cases_zero, Prod.mk.injEq, Fin.succ_ne_zero, false_and, if_false, Finset.sum_const_zero, add_zero]
      rw [neg_mul, Finset.sum_mul, ← Finset.sum_neg_distrib]
      exact Finset.sum_congr rfl fun j _ => by ring
    · have h0 : ∀ a : Fin n, ((0 : Fin (d + 1)), a) ≠ (l.succ, k) := fun a e => Fin.succ_ne_zero l (Prod.ext_iff.mp e).1.symm
      simp only [h0, if_false, Finset.sum_const_zero, zero_add, Fin.cases_succ, Prod.mk.injEq, Fin.succ_inj, and_true]
      rw [Finset.sum_eq_single l (by intro b _ hb; simp [hb]) (by simp),
        Finset.sum_eq_single l (by intro b _ hb; simp [Ne.symm hb]) (by simp)]
      simp
      try ring
  · intro b _ hb
    rw [total_append, total_map_fin, total_map_fin]
    simp [hb]
  · simp

theorem total_maxwell_volume_point (eps mu sigma factor : K) (u : Fin 6 → K) (phi : Fin n → K) (g : Fin n → Fin 3 → K) (i : Fin 6)
    (k : Fin n) :
    total (((List.finRange 6).flatMap fun i => (List.finRange n).flatMap fun k => (List.finRange 3).map fun j =>
        ((i, k), -Maxwell.flux (1 / mu) (1 / eps) u i j * g k j * factor)) ++
      ((List.finRange 3).flatMap fun i => (List.finRange n).map fun k =>
        ((Fin.castLE (by decide) i, k), (sigma / eps) * u (Fin.castLE (by decide) i) * phi k * factor))) (i, k)
      = (-maxwellNormalFlux eps mu (g k) u i + (if i.val < 3 then sigma / eps * u i * phi k else 0)) * factor := by
  rw [total_append, total_flatMap_fin, total_flatMap_fin, Finset.sum_eq_single i, total_flatMap_fin, Finset.sum_eq_single k, total_map_fin,
    add_mul]
  · congr 1
    · simp only [if_true]
      rw [Fin.sum_univ_three]
      fin_cases i <;> simp [Maxwell.flux, maxwellNormalFlux, cross_apply, dPart, bPart] <;> ring
    · simp only [total_map_fin, Prod.mk.injEq]
      by_cases hi : i.val < 3
      · rw [if_pos hi, Finset.sum_eq_single ⟨i.val, hi⟩, Finset.sum_eq_single k]
        · have : Fin.castLE (by decide : 3 ≤ 6) ⟨i.val, hi⟩ = i := Fin.ext rfl
          simp [this]
        · intro b _ hb; simp [hb]
        · simp
        · intro b _ hb
          refine Finset.sum_eq_zero fun c _ => if_neg fun hh => hb (Fin.ext ?_)
          have := congrArg Fin.val hh.1
          exact this
        · simp
      · rw [if_neg hi, zero_mul]
        refine Finset.sum_eq_zero fun b _ => Finset.sum_eq_zero fun c _ => if_neg fun hh => hi ?_
        rw [← hh.1]
        exact b.isLt
  · intro b _ hb
    rw [total_map_fin]
    simp [hb]
  · simp
  · intro b _ hb
    rw [total_flatMap_fin]
    refine Finset.sum_eq_zero fun c _ => ?_
    rw [total_map_fin]
    simp [hb]
  · simp

theorem faces_conservative {phiS : Q → Fin ns → K} {phiN : Q → Fin nn → K} (a : Fin ns → K) (b : Fin nn → K)
    (ha : ∀ p, ∑ k, a k * phiS p k = 1) (hb : ∀ p, ∑ k, b k * phiN p k = 1) (rule : List (Q × K)) (f : Q → Fin m → K) (ie : Q → K)
    (i : Fin m) :
    ∑ k, a k * total (rule.flatMap fun (q, w) => faceCalls (f q) (phiS q) (phiN q) (w * ie q)) (.inl (i, k)) +
    ∑ k, b k * total (rule.flatMap fun (q, w) => faceCalls (f q) (phiS q) (phiN q) (w * ie q)) (.inr (i, k)) = 0 := by
  induction rule with
  | nil => simp [total_nil]
  | cons q rule ih =>
    simp only [List.flatMap_cons, total_append, total_faceCalls_inl, total_faceCalls_inr, mul_add, Finset.sum_add_distrib] at ih ⊢
    have h1 : ∑ k, a k * (f q.1 i * phiS q.1 k * (q.2 * ie q.1)) = f q.1 i * (q.2 * ie q.1) := by
      calc _ = (f q.1 i * (q.2 * ie q.1)) * ∑ k, a k * phiS q.1 k := by
            rw [Finset.mul_sum]
            exact Finset.sum_congr rfl fun k _ => by ring
        _ = _ := by rw [ha, mul_one]
    have h2 : ∑ k, b k * (-f q.1 i * phiN q.1 k * (q.2 * ie q.1)) = -(f q.1 i * (q.2 * ie q.1)) := by
      calc _ = -(f q.1 i * (q.2 * ie q.1)) * ∑ k, b k * phiN q.1 k := by
            rw [Finset.mul_sum]
            exact Finset.sum_congr rfl fun k _ => by ring
        _ = _ := by rw [hb, mul_one]
    rw [h1, h2]
    linear_combination ih

theorem total_mass_point (phi : Fin n → K) (factor : K) (i i' : Fin m) (k k' : Fin n) :
    total ((List.finRange m).flatMap fun c => (List.finRange n).flatMap fun i => (List.finRange n).map fun j =>
      (((c, i), (c, j)), phi j * phi i * factor)) ((i, k), (i', k')) = (if i = i' then phi k' * phi k else 0) * factor := by
  rw [total_flatMap_fin, Finset.sum_eq_single i, total_flatMap_fin, Finset.sum_eq_single k, total_map_fin]
  · split
    · next h =>
      subst h
      rw [Finset.sum_eq_single k']
      · simp
      · intro b _ hb; simp [hb]
      · simp
    · next h =>
      rw [zero_mul]
      exact Finset.sum_eq_zero fun b _ => if_neg (by simp [h])
  · intro b _ hb
    rw [total_map_fin]
    simp [hb]
  · simp
  · intro b _ hb
    rw [total_flatMap_fin]
    refine Finset.sum_eq_zero fun c _ => ?_
    rw [total_map_fin]
    simp [hb]
  · simp

theorem quadrature_sum {ι : Type} (s : Finset ι) (rule : List (P × K)) (ie : P → K) (f : ι → P → K) :
    quadrature rule ie (fun p => ∑ k ∈ s, f k p) = ∑ k ∈ s, quadrature rule ie (f k) := by
  unfold quadrature
  induction rule with
  | nil => simp
  | cons q rule ih =>
    simp only [List.map_cons, List.sum_cons, Finset.sum_add_distrib] at ih ⊢
    rw [ih, Finset.sum_mul]

theorem quadrature_smul (rule : List (P × K)) (ie : P → K) (a : K) (f : P → K) :
    quadrature rule ie (fun p => a * f p) = a * quadrature rule ie f := by
  unfold quadrature
  induction rule with
  | nil => simp
  | cons q rule ih => simp only [List.map_cons, List.sum_cons, ih]; ring

theorem quadrature_add (rule : List (P × K)) (ie : P → K) (f g : P → K) :
    quadrature rule ie (fun p => f p + g p) = quadrature rule ie f + quadrature rule ie g := by
  unfold quadrature
  induction rule with
  | nil => simp
  | cons q rule ih => simp only [List.map_cons, List.sum_cons, ih]; ring

end
end Verif
