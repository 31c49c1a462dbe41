import Verif.Proofs.OPBRegion
import Mathlib.LinearAlgebra.BilinearMap
namespace Verif.OPB
open FE (setAt)

section Fold
variable {K : Type} [Field K]

theorem setRow_eq (c : Nat → Nat → K) (i l : Nat) (v : K) :
    setAt c i (setAt (c i) l v) = fun a m => if a = i ∧ m = l then v else c a m := by
  funext a m
  unfold setAt
  by_cases h1 : a = i
  · subst h1
    by_cases h2 : m = l <;> simp [h2]
  · simp [h1]

theorem fold_project (c : Nat → Nat → K) (i j : Nat) (hij : j ≠ i) (b : K) (m : Nat) :
    (List.range m).foldl (fun c l => setAt c i (setAt (c i) l (c i l - b * c j l))) c =
      fun a l => if a = i ∧ l < m then c i l - b * c j l else c a l := by
  induction m with
  | zero => simp
  | succ m ih =>
    rw [List.range_succ, List.foldl_append, ih]
    simp only [List.foldl_cons, List.foldl_nil]
    funext a l
    unfold setAt
    by_cases h1 : a = i
    · subst h1
      by_cases h2 : l = m
      · subst h2; simp [hij]
      · have : l < m + 1 ↔ l < m := by omega
        simp [h2, this]
    · simp [h1]

theorem fold_scale (c : Nat → Nat → K) (i : Nat) (s : K) (m : Nat) :
    (List.range m).foldl (fun c l => setAt c i (setAt (c i) l (s * c i l))) c =
      fun a l => if a = i ∧ l < m then s * c i l else c a l := by
  induction m with
  | zero => simp
  | succ m ih =>
    rw [List.range_succ, List.foldl_append, ih]
    simp only [List.foldl_cons, List.foldl_nil]
    funext a l
    unfold setAt
    by_cases h1 : a = i
    · subst h1
      by_cases h2 : l = m
      · subst h2; simp
      · have : l < m + 1 ↔ l < m := by omega
        simp [h2, this]
    · simp [h1]

theorem foldl_add_range_K (f : Nat → K) (n : Nat) (r : K) :
    (List.range n).foldl (fun s l => s + f l) r = r + ∑ l ∈ Finset.range n, f l := by
  induction n with
  | zero => simp
  | succ n ih => rw [List.range_succ, List.foldl_append, ih, Finset.sum_range_succ]; simp [add_assoc]

theorem foldl_sub_range_K (f : Nat → K) (n : Nat) (r : K) :
    (List.range n).foldl (fun s l => s - f l) r = r - ∑ l ∈ Finset.range n, f l := by
  induction n with
  | zero => simp
  | succ n ih => rw [List.range_succ, List.foldl_append, ih, Finset.sum_range_succ]; simp [sub_sub]

/-- The projections of row `i`. -/
def beta (integ : List Nat → K) (alpha : Nat → List Nat) (c : Nat → Nat → K) (i a : Nat) : K :=
  ∑ l ∈ Finset.range (a + 1), c a l * integ (addIndex (alpha i) (alpha l))

theorem gsProject_eq (integ : List Nat → K) (alpha : Nat → List Nat) (i : Nat) (st : (Nat → K) × (Nat → Nat → K)) (j : Nat)
    (hij : j ≠ i) : gsProject integ alpha i st j = (setAt st.1 j (beta integ alpha st.2 i j),
      fun a l => if a = i ∧ l < j + 1 then st.2 i l - beta integ alpha st.2 i j * st.2 j l else st.2 a l) := by
  unfold gsProject beta
  dsimp only
  rw [foldl_add_range_K, zero_add, fold_project _ _ _ hij]

theorem gsLoop (integ : List Nat → K) (alpha : Nat → List Nat) (i : Nat) (c : Nat → Nat → K)
    (hlow : ∀ a < i, ∀ l, a < l → c a l = 0) : ∀ m, m ≤ i →
    (∀ a < m, ((List.range m).foldl (gsProject integ alpha i) (fun _ => 0, c)).1 a = beta integ alpha c i a) ∧
    ((List.range m).foldl (gsProject integ alpha i) (fun _ => 0, c)).2 =
      fun a l => if a = i then c i l - ∑ b ∈ Finset.range m, beta integ alpha c i b * c b l else c a l := by
  intro m
  induction m with
  | zero =>
    intro _
    refine ⟨by simp, ?_⟩
    funext a l
    by_cases h : a = i <;> simp [h]
  | succ m ih =>
    intro hm
    obtain ⟨h1, h2⟩ := ih (by omega)
    rw [List.range_succ, List.foldl_append]
    simp only [List.foldl_cons, List.foldl_nil]
    rw [gsProject_eq _ _ _ _ _ (by omega)]
    have hb : beta integ alpha ((List.range m).foldl (gsProject integ alpha i) (fun _ => 0, c)).2 i m = beta integ alpha c i m := by
      unfold beta
      rw [h2]
      refine Finset.sum_congr rfl fun l _ => ?_
      dsimp only
      rw [if_neg (by omega)]
    rw [hb]
    constructor
    · intro a ha
      dsimp only [setAt]
      by_cases h : a = m
      · rw [if_pos h, h]
      · rw [if_neg h]; exact h1 a (by omega)
    · funext a l
      dsimp only
      rw [h2]
      dsimp only
      by_cases h : a = i
      · subst h
        simp only [true_and, if_true]
        rw [Finset.sum_range_succ, if_neg (show ¬ m = a by omega)]
        by_cases hl : l < m + 1
        · rw [if_pos hl]; ring
        · rw [if_neg hl, hlow m (by omega) l (by omega)]; ring
      · simp [h]

/-- One row of the Gram-Schmidt procedure. -/
theorem gsRow_eq (sqrt : K → K) (integ : List Nat → K) (alpha : Nat → List Nat) (c : Nat → Nat → K) (i : Nat)
    (hlow : ∀ a < i, ∀ l, a < l → c a l = 0) (hi : ∀ l, c i l = if i = l then 1 else 0) :
    gsRow sqrt integ alpha c i = fun a l =>
      if a = i then (1 / sqrt (integ (addIndex (alpha i) (alpha i)) - ∑ b ∈ Finset.range i, beta integ alpha c i b * beta integ alpha c i b)) *
        ((if i = l then 1 else 0) - ∑ b ∈ Finset.range i, beta integ alpha c i b * c b l)
      else c a l := by
  obtain ⟨h1, h2⟩ := gsLoop integ alpha i c hlow i le_rfl
  unfold gsRow
  dsimp only
  rw [fold_scale, foldl_sub_range_K, zero_add, h2]
  funext a l
  have hs : ∑ l ∈ Finset.range i, ((List.range i).foldl (gsProject integ alpha i) (fun _ => 0, c)).1 l *
      ((List.range i).foldl (gsProject integ alpha i) (fun _ => 0, c)).1 l =
      ∑ b ∈ Finset.range i, beta integ alpha c i b * beta integ alpha c i b :=
    Finset.sum_congr rfl fun b hb => by rw [h1 b (Finset.mem_range.1 hb)]
  rw [hs]
  by_cases h : a = i
  · subst h
    simp only [true_and, if_true]
    by_cases hl : l < a + 1
    · rw [if_pos hl, hi]
    · rw [if_neg hl, hi, if_neg (by omega)]
      have : ∑ b ∈ Finset.range a, beta integ alpha c a b * c b l = 0 :=
        Finset.sum_eq_zero fun b hb => by
          have := Finset.mem_range.1 hb
          rw [hlow b this l (by omega), mul_zero]
      rw [this]; ring
  · simp [h]

end Fold

/-- The bilinear form with a Gram matrix. -/
def gramForm (G : Nat → Nat → ℝ) (n : Nat) : (Nat → ℝ) →ₗ[ℝ] (Nat → ℝ) →ₗ[ℝ] ℝ :=
  LinearMap.mk₂ ℝ (fun u v => ∑ a ∈ Finset.range n, ∑ b ∈ Finset.range n, u a * v b * G a b)
    (by intro u u' v; simp only [Pi.add_apply, add_mul, Finset.sum_add_distrib])
    (by intro r u v; simp only [Pi.smul_apply, smul_eq_mul, Finset.mul_sum, mul_assoc])
    (by intro u v v'; simp only [Pi.add_apply, mul_add, add_mul, Finset.sum_add_distrib])
    (by
      intro r u v
      simp only [Pi.smul_apply, smul_eq_mul, Finset.mul_sum]
      exact Finset.sum_congr rfl fun a _ => Finset.sum_congr rfl fun b _ => by ring)

theorem gramForm_apply (G : Nat → Nat → ℝ) (n : Nat) (u v : Nat → ℝ) :
    gramForm G n u v = ∑ a ∈ Finset.range n, ∑ b ∈ Finset.range n, u a * v b * G a b := rfl

theorem gramForm_symm (G : Nat → Nat → ℝ) (hG : ∀ a b, G a b = G b a) (n : Nat) (u v : Nat → ℝ) :
    gramForm G n u v = gramForm G n v u := by
  rw [gramForm_apply, gramForm_apply, Finset.sum_comm]
  exact Finset.sum_congr rfl fun a _ => Finset.sum_congr rfl fun b _ => by rw [hG b a]; ring

/-- The unit vectors. -/
def unit (i : Nat) : Nat → ℝ := fun l => if i = l then 1 else 0

theorem gramForm_unit (G : Nat → Nat → ℝ) (n i : Nat) (hi : i < n) (v : Nat → ℝ) :
    gramForm G n (unit i) v = ∑ b ∈ Finset.range n, v b * G i b := by
  rw [gramForm_apply, Finset.sum_eq_single i]
  · simp [unit]
  · intro a _ hne
    simp [unit, Ne.symm hne]
  · intro h; exact absurd (Finset.mem_range.2 hi) h

theorem addIndex_comm (a b : List Nat) : addIndex a b = addIndex b a := by
  unfold addIndex
  exact List.zipWith_comm_of_comm fun x y => Nat.add_comm x y

/-- What the Gram-Schmidt procedure establishes for the rows below `m`. -/
structure Orthonormal (G : Nat → Nat → ℝ) (n : Nat) (c : Nat → Nat → ℝ) (m : Nat) : Prop where
  ortho : ∀ a < m, ∀ b < m, gramForm G n (c a) (c b) = if a = b then 1 else 0
  low : ∀ a < m, ∀ l, a < l → c a l = 0
  diag : ∀ a < m, 0 < c a a
  rest : ∀ a, m ≤ a → c a = unit a

theorem gramSchmidt_orthonormal (integ : List Nat → ℝ) (alpha : Nat → List Nat) (n : Nat)
    (hpos : ∀ (u : Nat → ℝ) (i : Nat), i < n → u i ≠ 0 →
      0 < gramForm (fun a b => integ (addIndex (alpha a) (alpha b))) n u u) :
    Orthonormal (fun a b => integ (addIndex (alpha a) (alpha b))) n (gramSchmidt Real.sqrt integ alpha n) n := by
  set G : Nat → Nat → ℝ := fun a b => integ (addIndex (alpha a) (alpha b)) with hGdef
  have hG : ∀ a b, G a b = G b a := fun a b => by simp only [hGdef]; rw [addIndex_comm]
  have key : ∀ m, m ≤ n → Orthonormal G n ((List.range m).foldl (gsRow Real.sqrt integ alpha) fun i j => if i = j then 1 else 0) m := by
    intro m
    induction m with
    | zero =>
      intro _
      exact ⟨by simp, by simp, by simp, fun a _ => rfl⟩
    | succ m ih =>
      intro hm
      have I := ih (by omega)
      rw [List.range_succ, List.foldl_append]
      simp only [List.foldl_cons, List.foldl_nil]
      set c := (List.range m).foldl (gsRow Real.sqrt integ alpha) fun i j => if i = j then 1 else 0 with hc
      rw [gsRow_eq Real.sqrt integ alpha c m I.low (fun l => by rw [I.rest m le_rfl]; rfl)]
      have hbeta : ∀ b < m, beta integ alpha c m b = gramForm G n (unit m) (c b) := by
        intro b hb
        rw [gramForm_unit G n m (by omega)]
        unfold beta
        rw [← Finset.sum_subset (Finset.range_subset_range.2 (show b + 1 ≤ n by omega))]
        intro l _ hl
        rw [I.low b hb l (by simpa using hl), zero_mul]
      set q : Nat → ℝ := unit m - ∑ b ∈ Finset.range m, beta integ alpha c m b • c b with hq
      have hqb : ∀ b < m, gramForm G n q (c b) = 0 := by
        intro b hb
        rw [hq, map_sub, map_sum]
        simp only [map_smul, LinearMap.sub_apply, LinearMap.sum_apply, LinearMap.smul_apply, smul_eq_mul]
        rw [Finset.sum_eq_single b]
        · rw [I.ortho b hb b hb, if_pos rfl, hbeta b hb]; ring
        · intro a ha hne
          rw [I.ortho a (Finset.mem_range.1 ha) b hb, if_neg hne, mul_zero]
        · intro h; exact absurd (Finset.mem_range.2 hb) h
      have hqm : q m = 1 := by
        rw [hq]
        simp only [Pi.sub_apply, Finset.sum_apply, Pi.smul_apply, smul_eq_mul, unit, if_true]
        rw [Finset.sum_eq_zero]
        · ring
        · intro b hb
          rw [I.low b (Finset.mem_range.1 hb) m (Finset.mem_range.1 hb), mul_zero]
      have hqq : gramForm G n q q = G m m - ∑ b ∈ Finset.range m, beta integ alpha c m b * beta integ alpha c m b := by
        have h1 : gramForm G n q q = gramForm G n q (unit m) := by
          conv_lhs => rw [show gramForm G n q q = gramForm G n q (unit m - ∑ b ∈ Finset.range m, beta integ alpha c m b • c b) from rfl]
          rw [map_sub, map_sum]
          simp only [map_smul, smul_eq_mul]
          rw [Finset.sum_eq_zero fun b hb => by rw [hqb b (Finset.mem_range.1 hb), mul_zero], sub_zero]
        rw [h1, hq, map_sub, map_sum]
        simp only [map_smul, LinearMap.sub_apply, LinearMap.sum_apply, LinearMap.smul_apply, smul_eq_mul]
        congr 1
        · rw [gramForm_unit G n m (by omega), Finset.sum_eq_single m]
          · simp [unit]
          · intro b _ hne; simp [unit, Ne.symm hne]
          · intro h; exact absurd (Finset.mem_range.2 (show m < n by omega)) h
        · refine Finset.sum_congr rfl fun b hb => ?_
          rw [gramForm_symm G hG, ← hbeta b (Finset.mem_range.1 hb)]
      have hqpos : 0 < gramForm G n q q := hpos q m (by omega) (by rw [hqm]; exact one_ne_zero)
      have hGm : integ (addIndex (alpha m) (alpha m)) = G m m := rfl
      rw [hGm, ← hqq]
      set s := 1 / Real.sqrt (gramForm G n q q) with hs
      have hspos : 0 < s := by rw [hs]; exact one_div_pos.2 (Real.sqrt_pos.2 hqpos)
      have hss : s * s * gramForm G n q q = 1 := by
        rw [hs]
        have h0 := Real.sqrt_pos.2 hqpos
        field_simp
        rw [Real.sq_sqrt hqpos.le]
      have hrow : (fun a l => if a = m then s * ((if m = l then 1 else 0) - ∑ b ∈ Finset.range m, beta integ alpha c m b * c b l)
          else c a l) = fun a => if a = m then s • q else c a := by
        funext a l
        by_cases h : a = m
        · simp only [h, if_true, Pi.smul_apply, smul_eq_mul, hq, Pi.sub_apply, Finset.sum_apply, unit]
        · simp only [h, if_false]
      rw [hrow]
      refine ⟨?_, ?_, ?_, ?_⟩
      · intro a ha b hb
        by_cases h1 : a = m
        · by_cases h2 : b = m
          · rw [if_pos h1, if_pos h2, if_pos (h1.trans h2.symm)]
            simp only [map_smul, LinearMap.smul_apply, smul_eq_mul]
            rw [← hss]; ring
          · rw [if_pos h1, if_neg h2, if_neg (by omega)]
            simp only [map_smul, LinearMap.smul_apply, smul_eq_mul]
            rw [hqb b (by omega), mul_zero]
        · by_cases h2 : b = m
          · rw [if_neg h1, if_pos h2, if_neg (by omega)]
            simp only [map_smul, smul_eq_mul]
            rw [gramForm_symm G hG, hqb a (by omega), mul_zero]
          · rw [if_neg h1, if_neg h2]
            exact I.ortho a (by omega) b (by omega)
      · intro a ha l hl
        by_cases h1 : a = m
        · rw [if_pos h1]
          have : q l = 0 := by
            rw [hq]
            simp only [Pi.sub_apply, Finset.sum_apply, Pi.smul_apply, smul_eq_mul, unit]
            rw [if_neg (by omega), Finset.sum_eq_zero, sub_zero]
            intro b hb
            have := Finset.mem_range.1 hb
            rw [I.low b this l (by omega), mul_zero]
          simp [this]
        · rw [if_neg h1]; exact I.low a (by omega) l hl
      · intro a ha
        by_cases h1 : a = m
        · rw [if_pos h1, h1]
          simp only [Pi.smul_apply, smul_eq_mul, hqm, mul_one]
          exact hspos
        · rw [if_neg h1]; exact I.diag a (by omega)
      · intro a ha
        rw [if_neg (by omega)]
        exact I.rest a (by omega)
  exact key n le_rfl

end Verif.OPB
